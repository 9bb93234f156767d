import Verif.Lemmas.Tax
import Verif.Props.Inflation

/-!
# Properties of `tax.py` (C28 - C32)
-/

set_option linter.unusedSectionVars false

namespace Forecaster.Tax

open Forecaster Forecaster.Inflation

variable {K : Type} [Field K] [LinearOrder K] [IsStrictOrderedRing K]

/-- The constructor's arguments are real dicts. -/
structure Args (br : Dict ℤ (Dict K K)) : Prop where
  wf : Dict.WF br
  tables : ∀ kv ∈ br, Dict.WF kv.2

/-- A `Tax` object in use: built by the constructor and then queried in any way. -/
def Reachable (t : Tax K) : Prop :=
  ∃ br pd cr adj t0 qs, Args br ∧ init br pd cr adj = .ok t0 ∧ t = run t0 qs

theorem foldlM_addBrackets (br : Dict ℤ (Dict K K)) (hbr : Dict.WF br)
    (htab : ∀ kv ∈ br, Dict.WF kv.2) (t t' : Tax K) (ht : Inv t)
    (h : br.foldlM (fun t kv => addBrackets t kv.2 kv.1) t = .ok t') :
    Inv t' ∧ t'.personal = t.personal ∧ t'.creditRates = t.creditRates ∧ t'.adjust = t.adjust ∧
      ∀ y, Dict.get? t'.brackets y
        = (Dict.get? br y).or (Dict.get? t.brackets y) := by
  induction br generalizing t with
  | nil =>
    simp only [List.foldlM_nil, except_pure, Except.ok.injEq] at h
    subst h; exact ⟨ht, rfl, rfl, rfl, fun y => by simp⟩
  | cons x br ih =>
    rw [List.foldlM_cons] at h
    cases ha : addBrackets t x.2 x.1 with
    | error e => rw [ha] at h; cases h
    | ok t1 =>
      rw [ha, ok_bind] at h
      obtain ⟨i1, i2, -, i4, i5, i6, i7⟩ := addBrackets_inv ht (htab x (by simp)) ha
      obtain ⟨j1, j2, j3, j4, j5⟩ := ih (Dict.wf_cons.1 hbr).2
        (fun kv hkv => htab kv (by simp [hkv])) t1 i1 h
      refine ⟨j1, j2.trans i4, j3.trans i5, j4.trans i6, fun y => ?_⟩
      rw [j5, i7, Dict.get?_cons]
      by_cases hy : x.1 = y
      · subst hy
        rw [Dict.get?_eq_none.2 (Dict.wf_cons.1 hbr).1]
        simp
      · simp [hy]

theorem init_inv {br : Dict ℤ (Dict K K)} {pd cr : Dict ℤ K} {adj : Adjust K} {t : Tax K}
    (hbr : Args br) (h : init br pd cr adj = .ok t) :
    Inv t ∧ t.adjust = adj ∧ ∀ y, Dict.get? t.brackets y = Dict.get? br y := by
  unfold init at h
  cases hf : br.foldlM (fun t kv => addBrackets t kv.2 kv.1) (⟨[], [], [], [], adj⟩ : Tax K) with
  | error e => rw [hf] at h; cases h
  | ok t1 =>
    rw [hf, ok_bind] at h
    have h0 : Inv (⟨[], [], [], [], adj⟩ : Tax K) :=
      ⟨Dict.wf_nil, Dict.wf_nil, by simp, by simp⟩
    obtain ⟨j1, -, -, j4, j5⟩ := foldlM_addBrackets br hbr.wf hbr.tables _ _ h0 hf
    have fin : ∀ p c, t = { t1 with personal := p, creditRates := c } →
        Inv t ∧ t.adjust = adj ∧ ∀ y, Dict.get? t.brackets y = Dict.get? br y := by
      rintro p c rfl
      exact ⟨⟨j1.wf, j1.wfAcc, j1.table, j1.acc⟩, j4, fun y => by rw [j5]; simp⟩
    cases e1 : orDefault pd t1.brackets 0 with
    | error e => rw [e1] at h; cases h
    | ok p =>
      rw [e1, ok_bind] at h
      cases e2 : orDefault cr t1.brackets 1 with
      | error e => rw [e2] at h; cases h
      | ok c =>
        rw [e2, ok_bind, Except.ok.injEq] at h
        exact fin p c h.symm

theorem marginalBracket_eq {t t' : Tax K} (ht : Inv t) {y : ℤ} {B : Dict K K}
    (h : taxBrackets t y = .ok (B, t')) (x : K) :
    ∃ b, pickBracket B x = .ok b ∧ marginalBracket t x y = .ok (b, t') := by
  obtain ⟨-, -, -, -, h5, -⟩ := taxBrackets_inv ht h
  obtain ⟨b, hb⟩ := pickBracket_ok h5 x
  exact ⟨b, hb, by unfold marginalBracket; simp only [h, ok_bind, hb]⟩

theorem marginalRate_eq {t t' : Tax K} (ht : Inv t) {y : ℤ} {B : Dict K K}
    (h : taxBrackets t y = .ok (B, t')) (x : K) :
    ∃ b, pickBracket B x = .ok b ∧ b ∈ Dict.keys B ∧
      marginalRate t x y = .ok (Dict.val B b, t') := by
  obtain ⟨i1, -, h3, -, -, -⟩ := taxBrackets_inv ht h
  obtain ⟨b, hb, hm⟩ := marginalBracket_eq i1 h3 x
  have hk : b ∈ Dict.keys B := by
    rcases pickBracket_spec hb with h | h
    · exact h.1
    · exact h.2.1
  refine ⟨b, hb, hk, ?_⟩
  unfold marginalRate
  have : getItem B b = .ok (Dict.val B b) := by unfold getItem; rw [Dict.get?_eq_some_val hk]
  simp only [h, ok_bind, hm, this]

theorem wf_of_scale {B : Dict K K} (hB : Dict.WF B) (c : K) {B' : Dict K K}
    (h : (Val.dict B).scale c = .dict B') : Dict.WF B' := by
  simp only [Val.scale, Val.dict.injEq] at h
  subst h; exact Dict.wf_mapVals _ hB

theorem accum_inv {t t' : Tax K} (ht : Inv t) {y : ℤ} {a : Dict K K}
    (h : accum t y = .ok (a, t')) : Inv t' ∧ t'.adjust = t.adjust ∧
      t'.personal = t.personal ∧ t'.creditRates = t.creditRates := by
  unfold accum at h
  cases hg : Dict.get? t.accum y with
  | some a' => rw [hg] at h; cases h; exact ⟨ht, rfl, rfl, rfl⟩
  | none =>
    rw [hg] at h
    simp only at h
    cases he : extendInflationAdjusted (Dict.mapVals Val.dict t.brackets) t.adjust y with
    | error e => rw [he] at h; cases h
    | ok v =>
      rw [he, ok_bind] at h
      cases v with
      | scalar x => cases h
      | list l => cases h
      | dict B =>
        simp only at h
        cases ha : addBrackets t B y with
        | error e => rw [ha] at h; cases h
        | ok t1 =>
          rw [ha, ok_bind] at h
          have hB : Dict.WF B := by
            unfold extendInflationAdjusted at he
            rw [Dict.get?_mapVals] at he
            cases hgy : Dict.get? t.brackets y with
            | some B' =>
              rw [hgy] at he
              simp only [Option.map_some, Except.ok.injEq, Val.dict.injEq] at he
              subst he; exact (ht.table _ _ hgy).1
            | none =>
              rw [hgy] at he
              simp only [Option.map_none] at he
              split at he
              · cases he
              · split at he
                · split at he
                  · cases he
                  · next v hv =>
                    rw [Dict.get?_mapVals] at hv
                    simp only [Option.map_eq_some_iff] at hv
                    obtain ⟨B', hB', rfl⟩ := hv
                    cases hc : t.adjust y _ with
                    | error e => rw [hc] at he; cases he
                    | ok c =>
                      rw [hc, ok_bind] at he
                      simp only [Except.ok.injEq] at he
                      exact wf_of_scale (ht.table _ _ hB').1 c he
                · cases he
          obtain ⟨i1, -, -, i4, i5, i6, -⟩ := addBrackets_inv ht hB ha
          cases hg2 : Dict.get? t1.accum y with
          | none => rw [hg2] at h; cases h
          | some a' => rw [hg2] at h; cases h; exact ⟨i1, i6, i4, i5⟩

/-- Whatever is asked, the object stays consistent. -/
theorem query_inv {t t' : Tax K} (ht : Inv t) {q : Query K} {ans : Answer K}
    (h : query t q = .ok (ans, t')) : Inv t' ∧ t'.adjust = t.adjust ∧
      t'.personal = t.personal ∧ t'.creditRates = t.creditRates := by
  have hbr : ∀ (y : ℤ) (B : Dict K K) (t1 : Tax K), taxBrackets t y = .ok (B, t1) →
      Inv t1 ∧ t1.adjust = t.adjust ∧ t1.personal = t.personal ∧ t1.creditRates = t.creditRates :=
    fun y B t1 h => by
      obtain ⟨i1, -, -, -, -, -, i2, i3, i4⟩ := taxBrackets_inv ht h
      exact ⟨i1, i4, i2, i3⟩
  cases q with
  | brackets y =>
    simp only [query] at h
    cases hb : taxBrackets t y with
    | error e => rw [hb] at h; cases h
    | ok r => rw [hb] at h; cases h; exact hbr y r.1 r.2 hb
  | marginalBracket x y =>
    simp only [query] at h
    cases hb : taxBrackets t y with
    | error e => simp only [marginalBracket, hb, error_bind] at h; cases h
    | ok r =>
      obtain ⟨b, -, e⟩ := marginalBracket_eq ht hb x
      rw [e] at h; cases h; exact hbr y r.1 r.2 hb
  | marginalRate x y =>
    simp only [query] at h
    cases hb : taxBrackets t y with
    | error e => simp only [marginalRate, hb, error_bind] at h; cases h
    | ok r =>
      obtain ⟨b, -, -, e⟩ := marginalRate_eq ht hb x
      rw [e] at h; cases h; exact hbr y r.1 r.2 hb
  | money x y d c =>
    simp only [query] at h
    cases hb : taxBrackets t y with
    | error e => simp only [taxMoney, hb, error_bind] at h; cases h
    | ok r =>
      obtain ⟨b, acc, rate, -, -, -, -, e⟩ := taxMoney_eq ht hb x d c
      rw [e] at h
      cases hc : creditRate t y with
      | error e => rw [hc] at h; cases h
      | ok cr => rw [hc] at h; cases h; exact hbr y r.1 r.2 hb
  | personal y =>
    simp only [query] at h
    cases hb : personalDeduction t y with
    | error e => rw [hb] at h; cases h
    | ok r => rw [hb] at h; cases h; exact ⟨ht, rfl, rfl, rfl⟩
  | creditRate y =>
    simp only [query] at h
    cases hb : creditRate t y with
    | error e => rw [hb] at h; cases h
    | ok r => rw [hb] at h; cases h; exact ⟨ht, rfl, rfl, rfl⟩
  | accum y =>
    simp only [query] at h
    cases hb : accum t y with
    | error e => rw [hb] at h; cases h
    | ok r => rw [hb] at h; cases h; exact accum_inv ht hb

theorem run_inv {t : Tax K} (ht : Inv t) (qs : List (Query K)) : Inv (run t qs) := by
  induction qs generalizing t with
  | nil => exact ht
  | cons q qs ih =>
    simp only [run, List.foldl_cons]
    apply ih
    split
    · next h => exact (query_inv ht h).1
    · exact ht

theorem Reachable.inv {t : Tax K} (h : Reachable t) : Inv t := by
  obtain ⟨br, pd, cr, adj, t0, qs, h1, h2, rfl⟩ := h
  exact run_inv (init_inv h1 h2).1 qs

/-! ## C28: tax as the bracket-wise integral of the marginal rates -/

/-- **C28** (no brackets). A table with a year without any brackets is refused with `ValueError`. -/
theorem C28_brackets_needed (brackets : Dict ℤ (Dict K K)) (personal creditRates : Dict ℤ K)
    (adj : Adjust K) (h : ∃ y, (y, []) ∈ brackets) :
    init brackets personal creditRates adj = .error .valueError := by
  have key : ∀ (l : Dict ℤ (Dict K K)) (t : Tax K), (∃ y, (y, []) ∈ l) →
      l.foldlM (fun t kv => addBrackets t kv.2 kv.1) t = .error .valueError := by
    intro l
    induction l with
    | nil => rintro _ ⟨y, hy⟩; cases hy
    | cons kv l ih =>
      rintro t ⟨y, hy⟩
      rw [List.foldlM_cons]
      cases ha : accumTable kv.2 with
      | error e =>
        have he : e = .valueError := by
          unfold accumTable at ha
          split at ha <;> cases ha
          rfl
        simp only [addBrackets, ha, error_bind, he]
      | ok a =>
        simp only [addBrackets, ha, ok_bind]
        apply ih
        rcases List.mem_cons.1 hy with h | h
        · rw [← h] at ha
          cases ha
        · exact ⟨y, h⟩
  unfold init
  rw [key _ _ h]
  rfl

example : init [(2000, [(0, 1 / 10)]), (2001, [])] [] [] (fun _ _ => .ok 1)
    = (.error .valueError : Except PyErr (Tax ℚ)) :=
  C28_brackets_needed _ _ _ _ ⟨2001, by simp⟩

/-- **C28.** For every `Tax` object, however used before: tax on any amount that reaches the
lowest threshold, less deductions, is the bracket-by-bracket tax of the year's table, less
credits at the credit rate, but never negative. -/
theorem C28_tax_is_bracket_sum {t t' : Tax K} (ht : Reachable t) {y : ℤ} {B : Dict K K}
    (hB : taxBrackets t y = .ok (B, t')) {cr : K} (hcr : creditRate t y = .ok cr) (x d c : K)
    (hx : ∃ b ∈ Dict.keys B, b ≤ x - d) :
    taxMoney t x y d c = .ok (max (bracketTax (ascending B) (x - d) - c * cr) 0, t') := by
  obtain ⟨b, acc, rate, hb, -, h1, h2, h3⟩ := taxMoney_eq ht.inv hB x d c
  rw [h3, hcr]
  have hbx : b ≤ x - d := by
    rcases pickBracket_spec hb with h | ⟨-, -, h⟩
    · exact h.2.1.le
    · obtain ⟨b', hb', hle⟩ := hx
      exact (h b' hb').trans hle
  rw [h1 hbx]
  rfl

/-- The same below the lowest threshold (where the tax is nil), for non-negative rates and
credits. -/
theorem C28_tax_is_bracket_sum' {t t' : Tax K} (ht : Reachable t) {y : ℤ} {B : Dict K K}
    (hB : taxBrackets t y = .ok (B, t')) {cr : K} (hcr : creditRate t y = .ok cr) (x d c : K)
    (hr : ∀ kv ∈ B, 0 ≤ kv.2) (hc : 0 ≤ c) (hcr0 : 0 ≤ cr) :
    taxMoney t x y d c = .ok (max (bracketTax (ascending B) (x - d) - c * cr) 0, t') := by
  by_cases hx : ∃ b ∈ Dict.keys B, b ≤ x - d
  · exact C28_tax_is_bracket_sum ht hB hcr x d c hx
  obtain ⟨b, acc, rate, hb, hrate, -, h2, h3⟩ := taxMoney_eq ht.inv hB x d c
  have hk : b ∈ Dict.keys B := by
    rcases pickBracket_spec hb with h | h
    · exact h.1
    · exact h.2.1
  have hbx : x - d ≤ b := by
    by_contra h
    exact hx ⟨b, hk, (not_le.1 h).le⟩
  obtain ⟨rfl, h4⟩ := h2 hbx
  have hr0 : 0 ≤ rate := by
    unfold getItem at hrate
    rw [Dict.get?_eq_some_val hk] at hrate
    simp only [Except.ok.injEq] at hrate
    rw [← hrate]
    exact hr _ (Dict.mem_of_get? (Dict.get?_eq_some_val hk))
  rw [h3, hcr, h4]
  have hcc := mul_nonneg hc hcr0
  have e1 : max (0 + (x - d - b) * rate - c * cr) 0 = 0 := by
    apply max_eq_right
    have := mul_nonneg (sub_nonneg.2 hbx) hr0
    nlinarith
  have e2 : max (0 - c * cr) 0 = 0 := max_eq_right (by linarith)
  simp only [Except.bind, e1, e2]

/-- An example table: 10% from 0, 20% from 100, 30% from 1000, in the year 2000. -/
def sampleBrackets : Dict ℤ (Dict ℚ ℚ) := [(2000, [(0, 1 / 10), (1000, 3 / 10), (100, 1 / 5)])]
/-- Prices double every 10 years from 2000 to 2010. -/
def sampleAdjust : Adjust ℚ := fun y b =>
  .ok ((if y < 2010 then 1 else 2) / (if b < 2010 then 1 else 2))
/-- A `Tax` object. -/
def sampleTax : Tax ℚ :=
  ⟨[(2000, [(0, 1 / 10), (1000, 3 / 10), (100, 1 / 5)])], [(2000, [(0, 0), (100, 10), (1000, 190)])],
    [(2000, 50)], [(2000, 1 / 2)], sampleAdjust⟩

theorem sample_args : Args sampleBrackets :=
  ⟨by unfold Dict.WF; decide +kernel, by unfold Dict.WF; decide +kernel⟩

theorem sample_init :
    init sampleBrackets [(2000, 50)] [(2000, 1 / 2)] sampleAdjust = .ok sampleTax := by
  have h : accumTable ([(0, 1 / 10), (1000, 3 / 10), (100, 1 / 5)] : Dict ℚ ℚ)
      = .ok [(0, 0), (100, 10), (1000, 190)] := by decide +kernel
  unfold init sampleBrackets
  simp only [List.foldlM_cons, List.foldlM_nil, addBrackets, h, ok_bind, except_pure, Dict.set]
  rfl

theorem sample_reachable (qs : List (Query ℚ)) : Reachable (run sampleTax qs) :=
  ⟨_, _, _, _, _, qs, sample_args, sample_init, rfl⟩

example : ∃ t', taxBrackets sampleTax 2000 = .ok ([(0, 1 / 10), (1000, 3 / 10), (100, 1 / 5)], t') ∧
    creditRate sampleTax 2000 = .ok (1 / 2) ∧
    (∀ kv ∈ ([(0, 1 / 10), (1000, 3 / 10), (100, 1 / 5)] : Dict ℚ ℚ), 0 ≤ kv.2) ∧
    (taxMoney sampleTax 1500 2000 100 20).map Prod.fst = .ok 300 ∧
    bracketTax (ascending ([(0, 1 / 10), (1000, 3 / 10), (100, 1 / 5)] : Dict ℚ ℚ)) 1400 = 310 :=
  ⟨sampleTax, rfl, by decide +kernel, by decide +kernel, by decide +kernel, by decide +kernel⟩

/-- The setting of the following theorems: an object in use, the year's table `B`, and rates,
credits and credit rates that are not negative. -/
structure Sane (t : Tax K) (y : ℤ) (B : Dict K K) (c : K) : Prop where
  reach : Reachable t
  table : ∃ t', taxBrackets t y = .ok (B, t')
  rates : ∀ kv ∈ B, 0 ≤ kv.2
  credit : 0 ≤ c
  creditRate : ∃ cr, creditRate t y = .ok cr ∧ 0 ≤ cr

theorem Sane.money {t : Tax K} {y : ℤ} {B : Dict K K} {c : K} (h : Sane t y B c) :
    Dict.WF B ∧ B ≠ [] ∧ ∃ cr, 0 ≤ cr ∧ ∀ x d, ∃ t',
      taxMoney t x y d c = .ok (max (bracketTax (ascending B) (x - d) - c * cr) 0, t') := by
  obtain ⟨t', ht⟩ := h.table
  obtain ⟨cr, hcr, h0⟩ := h.creditRate
  obtain ⟨-, -, -, h4, h5, -⟩ := taxBrackets_inv h.reach.inv ht
  exact ⟨h4, h5, cr, h0, fun x d =>
    ⟨t', C28_tax_is_bracket_sum' h.reach ht hcr x d c h.rates h.credit h0⟩⟩

/-- **C28.** Tax is defined for every income, never negative, and zero for any income at or below
the lowest threshold. -/
theorem C28_zero_below_lowest {t : Tax K} {y : ℤ} {B : Dict K K} {c : K} (h : Sane t y B c)
    (x d : K) :
    ∃ v t', taxMoney t x y d c = .ok (v, t') ∧ 0 ≤ v ∧
      ((∀ b ∈ Dict.keys B, x - d ≤ b) → v = 0) := by
  obtain ⟨h1, h2, cr, h3, h4⟩ := h.money
  obtain ⟨t', h5⟩ := h4 x d
  refine ⟨_, t', h5, le_max_right _ _, fun hx => ?_⟩
  obtain ⟨p, rest, hasc, -⟩ := accumTable_eq h1 h2
  have hs := ascending_sorted h1
  rw [hasc] at hs ⊢
  rw [bracketTax_cons _ _ _ _ (hx p ((keys_ascending p).1 (by rw [hasc]; simp))) hs]
  exact max_eq_right (by linarith [mul_nonneg h.credit h3])

/-- **C28.** Earning more never lowers the tax; raising a deduction never raises it. -/
theorem C28_monotone {t : Tax K} {y : ℤ} {B : Dict K K} {c : K} (h : Sane t y B c)
    {x1 x2 d1 d2 v1 v2 : K} {t1 t2 : Tax K} (hx : x1 ≤ x2) (hd : d2 ≤ d1)
    (h1 : taxMoney t x1 y d1 c = .ok (v1, t1)) (h2 : taxMoney t x2 y d2 c = .ok (v2, t2)) :
    v1 ≤ v2 := by
  obtain ⟨hw, -, cr, -, h4⟩ := h.money
  obtain ⟨_, e1⟩ := h4 x1 d1
  obtain ⟨_, e2⟩ := h4 x2 d2
  rw [h1] at e1; rw [h2] at e2
  cases e1; cases e2
  apply max_le_max _ le_rfl
  have := bracketTax_mono (ascending B) (fun p hp => h.rates p ((mem_ascending hw).1 hp))
    (show x1 - d1 ≤ x2 - d2 by linarith)
  linarith

/-- **C28.** If no rate exceeds `R`, an extra amount of income raises the tax by at most `R`
times that amount (so there are no jumps); in particular with rates of at most 100% one never
loses by earning more, and the tax does not exceed the income above the lowest threshold. -/
theorem C28_lipschitz {t : Tax K} {y : ℤ} {B : Dict K K} {c : K} (h : Sane t y B c) {R : K}
    (hR : ∀ kv ∈ B, kv.2 ≤ R) {x1 x2 d v1 v2 : K} {t1 t2 : Tax K} (hx : x1 ≤ x2)
    (h1 : taxMoney t x1 y d c = .ok (v1, t1)) (h2 : taxMoney t x2 y d c = .ok (v2, t2)) :
    v2 - v1 ≤ R * (x2 - x1) ∧
    ∀ b ∈ Dict.keys B, (∀ b' ∈ Dict.keys B, b ≤ b') → v1 ≤ R * max (x1 - d - b) 0 := by
  obtain ⟨hw, hne, cr, hcr, h4⟩ := h.money
  obtain ⟨_, e1⟩ := h4 x1 d
  obtain ⟨_, e2⟩ := h4 x2 d
  rw [h1] at e1; rw [h2] at e2
  simp only [Except.ok.injEq, Prod.mk.injEq] at e1 e2
  obtain ⟨p, rest, hasc, -⟩ := accumTable_eq hw hne
  have hs := ascending_sorted hw
  have hR' : ∀ q ∈ ascending B, q.2 ≤ R := fun q hq => hR q ((mem_ascending hw).1 hq)
  have hn' : ∀ q ∈ ascending B, 0 ≤ q.2 := fun q hq => h.rates q ((mem_ascending hw).1 hq)
  rw [hasc] at hs hR' hn' e1 e2
  have hR0 : 0 ≤ R := (hn' (p, Dict.val B p) (by simp)).trans (hR' _ (by simp))
  have hcc := mul_nonneg h.credit hcr
  constructor
  · have hl := bracketTax_lip _ _ _ R hs hR' (show x1 - d ≤ x2 - d by linarith)
    have hm := bracketTax_mono _ hn' (show x1 - d ≤ x2 - d by linarith)
    have hd : max (x2 - d - p) 0 - max (x1 - d - p) 0 ≤ x2 - x1 := by
      rcases le_total (x2 - d - p) 0 with a | a
      · rw [max_eq_right a, max_eq_right (by linarith)]; linarith
      · rw [max_eq_left a]
        linarith [le_max_left (x1 - d - p) 0]
    have hl2 := mul_le_mul_of_nonneg_left hd hR0
    rw [e1.1, e2.1]
    rcases le_total (bracketTax ((p, Dict.val B p) :: rest) (x2 - d) - c * cr) 0 with a | a
    · rw [max_eq_right a]
      have := le_max_right (bracketTax ((p, Dict.val B p) :: rest) (x1 - d) - c * cr) 0
      have := mul_nonneg hR0 (sub_nonneg.2 hx)
      linarith
    · rw [max_eq_left a]
      have := le_max_left (bracketTax ((p, Dict.val B p) :: rest) (x1 - d) - c * cr) 0
      linarith
  · intro b hb hmin
    have hbp : b = p := by
      apply le_antisymm (hmin p ((keys_ascending p).1 (by rw [hasc]; simp)))
      have := (keys_ascending b).2 hb
      rw [hasc, Dict.keys_cons] at this
      rcases List.mem_cons.1 this with h | h
      · exact h.ge
      · obtain ⟨w, hw, rfl⟩ := List.mem_map.1 h
        exact ((List.pairwise_cons.1 hs).1 w hw).le
    subst hbp
    rw [e1.1]
    apply max_le _ (mul_nonneg hR0 (le_max_right _ _))
    rcases le_total (x1 - d) b with a | a
    · rw [bracketTax_cons _ _ _ _ a hs, max_eq_right (by linarith)]; linarith
    · have hl := bracketTax_lip _ _ _ R hs hR' a
      rw [bracketTax_cons _ _ _ _ le_rfl hs] at hl
      simp only [sub_self, max_self] at hl
      linarith

/-- **C28.** With rates that rise from bracket to bracket, tax is convex: averaging an uneven
income over two years never raises the total tax. -/
theorem C28_convex {t : Tax K} {y : ℤ} {B : Dict K K} {c : K} (h : Sane t y B c)
    (hinc : ∀ p ∈ B, ∀ q ∈ B, p.1 < q.1 → p.2 ≤ q.2) {l x1 x2 d v1 v2 v : K} {t1 t2 t3 : Tax K}
    (h0 : 0 ≤ l) (hl : l ≤ 1)
    (h1 : taxMoney t x1 y d c = .ok (v1, t1)) (h2 : taxMoney t x2 y d c = .ok (v2, t2))
    (h3 : taxMoney t (l * x1 + (1 - l) * x2) y d c = .ok (v, t3)) :
    v ≤ l * v1 + (1 - l) * v2 := by
  obtain ⟨hw, hne, cr, hcr, h4⟩ := h.money
  obtain ⟨_, e1⟩ := h4 x1 d
  obtain ⟨_, e2⟩ := h4 x2 d
  obtain ⟨_, e3⟩ := h4 (l * x1 + (1 - l) * x2) d
  rw [h1] at e1; rw [h2] at e2; rw [h3] at e3
  cases e1; cases e2; cases e3
  have hs := ascending_sorted hw
  have hinc' : (ascending B).Pairwise fun p q => p.2 ≤ q.2 := by
    refine List.Pairwise.imp_of_mem ?_ hs
    intro p q hp hq hlt
    exact hinc p ((mem_ascending hw).1 hp) q ((mem_ascending hw).1 hq) hlt
  have key := bracketTax_convex (ascending B) hs hinc'
    (fun q hq => h.rates q ((mem_ascending hw).1 hq)) (x := x1 - d) (y := x2 - d) h0 hl
  have e : l * x1 + (1 - l) * x2 - d = l * (x1 - d) + (1 - l) * (x2 - d) := by ring
  rw [e]
  have a1 := mul_le_mul_of_nonneg_left
    (le_max_left (bracketTax (ascending B) (x1 - d) - c * cr) 0) h0
  have a2 := mul_le_mul_of_nonneg_left
    (le_max_left (bracketTax (ascending B) (x2 - d) - c * cr) 0) (sub_nonneg.2 hl)
  have a3 := mul_nonneg h0 (le_max_right (bracketTax (ascending B) (x1 - d) - c * cr) 0)
  have a4 := mul_nonneg (sub_nonneg.2 hl)
    (le_max_right (bracketTax (ascending B) (x2 - d) - c * cr) 0)
  apply max_le
  · nlinarith
  · linarith

theorem sample_sane : Sane sampleTax 2000 [(0, 1 / 10), (1000, 3 / 10), (100, 1 / 5)] 20 :=
  ⟨sample_reachable [], ⟨sampleTax, rfl⟩, by decide +kernel, by decide +kernel,
    ⟨1 / 2, by decide +kernel, by decide +kernel⟩⟩

example : (∀ p ∈ ([(0, 1 / 10), (1000, 3 / 10), (100, 1 / 5)] : Dict ℚ ℚ),
    ∀ q ∈ ([(0, 1 / 10), (1000, 3 / 10), (100, 1 / 5)] : Dict ℚ ℚ), p.1 < q.1 → p.2 ≤ q.2) ∧
    (∀ p ∈ ([(0, 1 / 10), (1000, 3 / 10), (100, 1 / 5)] : Dict ℚ ℚ), p.2 ≤ 3 / 10) := by
  decide +kernel

/-! ## C29: the marginal bracket and rate -/

/-- **C29.** `marginal_bracket` is the greatest threshold *strictly* below the income, or the
lowest threshold if there is none below; `marginal_rate` is its rate. -/
theorem C29_marginal_bracket {t t' : Tax K} (ht : Reachable t) {y : ℤ} {B : Dict K K}
    (hB : taxBrackets t y = .ok (B, t')) (x : K) :
    ∃ b r, marginalBracket t x y = .ok (b, t') ∧ marginalRate t x y = .ok (r, t') ∧
      (b, r) ∈ B ∧
      ((b < x ∧ ∀ kv ∈ B, kv.1 < x → kv.1 ≤ b) ∨
       ((∀ kv ∈ B, x ≤ kv.1) ∧ ∀ kv ∈ B, b ≤ kv.1)) := by
  obtain ⟨b, hb, e1⟩ := marginalBracket_eq ht.inv hB x
  obtain ⟨b', hb', hk, e2⟩ := marginalRate_eq ht.inv hB x
  rw [hb] at hb'; cases hb'
  refine ⟨b, _, e1, e2, Dict.mem_of_get? (Dict.get?_eq_some_val hk), ?_⟩
  rcases pickBracket_spec hb with ⟨-, h2, h3⟩ | ⟨h1, -, h3⟩
  · exact Or.inl ⟨h2, fun kv hkv => h3 kv.1 (Dict.mem_keys_of_mem hkv)⟩
  · exact Or.inr ⟨fun kv hkv => h1 kv.1 (Dict.mem_keys_of_mem hkv),
      fun kv hkv => h3 kv.1 (Dict.mem_keys_of_mem hkv)⟩

/-- On an interval without thresholds in its interior, bracket tax is affine, with the rate of
the marginal bracket of any of its points. -/
theorem bracketTax_affine {B : Dict K K} (hB : Dict.WF B) (hne : B ≠ []) {x x' b : K}
    (hb : pickBracket B x = .ok b) (hbx : b < x) (h1 : b ≤ x')
    (h2 : ∀ k ∈ Dict.keys B, k < x' → k < x) :
    bracketTax (ascending B) x' - bracketTax (ascending B) x = Dict.val B b * (x' - x) := by
  obtain ⟨a, acc, rate, e1, e2, e3, e4, -, e6⟩ := gross_eq hB hne hb
  obtain ⟨b', hb'⟩ := pickBracket_ok hne x'
  obtain ⟨a', acc', rate', e1', e2', e3', e4', e5', e6'⟩ := gross_eq hB hne hb'
  rw [e1] at e1'; cases e1'
  have hk : b ∈ Dict.keys B ∧ ∀ k ∈ Dict.keys B, k < x → k ≤ b := by
    rcases pickBracket_spec hb with h | h
    · exact ⟨h.1, h.2.2⟩
    · exact absurd hbx (not_lt.2 (h.1 b h.2.1))
  rcases h1.lt_or_eq with h1 | h1
  · have hbb : b' = b := by
      rcases pickBracket_spec hb' with ⟨g1, g2, g3⟩ | ⟨g1, g2, -⟩
      · exact le_antisymm (hk.2 b' g1 (h2 b' g1 g2)) (g3 b hk.1 h1)
      · exact absurd h1 (not_lt.2 (g1 b hk.1))
    subst hbb
    rw [e2] at e2'; cases e2'
    rw [← e4 hbx.le, ← e4' h1.le, ← e6', ← e6]; ring
  · subst h1
    -- the tax at the threshold itself is the accumulated amount
    have hval : bracketTax (ascending B) b = acc := by
      obtain ⟨p, rest, hasc, hacc⟩ := accumTable_eq hB hne
      rw [e1] at hacc; cases hacc
      have hs := ascending_sorted hB
      rw [hasc] at hs
      have hw := walk_pick p (Dict.val B p) 0 rest x b hs (Or.inl ⟨by
        rw [← hasc]; exact (keys_ascending b).2 hk.1, hbx, fun k hkk =>
          hk.2 k ((keys_ascending k).1 (by rw [hasc]; exact hkk))⟩)
      clear hw
      -- accumulated amounts are bracket taxes at the thresholds
      have gen : ∀ (p rp a : K) (rest : List (K × K)),
          ((p, rp) :: rest).Pairwise (fun p q => p.1 < q.1) →
          ∀ b ∈ Dict.keys ((p, rp) :: rest),
            Dict.val ((p, a) :: accList p rp a rest) b = a + bracketTax ((p, rp) :: rest) b := by
        intro p rp a rest
        induction rest generalizing p rp a with
        | nil =>
          intro _ b hb
          simp only [Dict.keys_cons, Dict.keys_nil, List.mem_singleton] at hb
          subst hb
          simp [accList, Dict.val, Dict.get?, bracketTax]
        | cons q rest ih =>
          obtain ⟨b1, r1⟩ := q
          intro hs b hb
          have hlt : p < b1 := (List.pairwise_cons.1 hs).1 (b1, r1) (by simp)
          by_cases hbp : b = p
          · subst hbp
            rw [bracketTax_cons _ _ _ _ le_rfl hs]
            simp [Dict.val, Dict.get?_cons]
          · rw [Dict.keys_cons] at hb
            have hb := (List.mem_cons.1 hb).resolve_left hbp
            have := ih b1 r1 ((b1 - p) * rp + a) (List.pairwise_cons.1 hs).2 b hb
            have e : Dict.val ((p, a) :: accList p rp a ((b1, r1) :: rest)) b
              = Dict.val ((b1, (b1 - p) * rp + a) :: accList b1 r1 ((b1 - p) * rp + a) rest) b := by
              simp only [accList]
              simp [Dict.val, Dict.get?_cons, Ne.symm hbp]
            have hle : b1 ≤ b := by
              rw [Dict.keys_cons] at hb
              rcases List.mem_cons.1 hb with h | h
              · exact h.ge
              · obtain ⟨w, hw, rfl⟩ := List.mem_map.1 h
                exact ((List.pairwise_cons.1 (List.pairwise_cons.1 hs).2).1 w hw).le
            rw [e, this, bracketTax, min_eq_right hle, max_eq_left (by linarith)]
            ring
      have := gen p (Dict.val B p) 0 rest hs b (by
        rw [← hasc]; exact (keys_ascending b).2 hk.1)
      rw [zero_add, ← hasc] at this
      rw [← this]
      unfold getItem at e2
      split at e2
      · next v hv =>
        cases e2; unfold Dict.val; rw [Dict.val] at hv; rw [hv]; rfl
      · cases e2
    rw [hval, ← e4 hbx.le, ← e6]; ring

/-- **C29.** `marginal_rate` is the rate at which income around `x` is taxed: for every other
income `x'` down to the marginal bracket, or up to the next threshold, the tax (before credits)
differs by exactly `marginal_rate * (x' - x)`. (At a threshold the rate is that of the income
just below it.) -/
theorem C29_marginal_rate {t : Tax K} {y : ℤ} {B : Dict K K} (h : Sane t y B 0)
    {x x' b r v v' : K} {t1 t2 t3 t4 : Tax K}
    (h1 : marginalBracket t x y = .ok (b, t1)) (h2 : marginalRate t x y = .ok (r, t2))
    (h3 : taxMoney t x y 0 0 = .ok (v, t3)) (h4 : taxMoney t x' y 0 0 = .ok (v', t4))
    (hbx : b < x) (hx' : b ≤ x') (hno : ∀ kv ∈ B, ¬ (x ≤ kv.1 ∧ kv.1 < x')) :
    v' - v = r * (x' - x) := by
  obtain ⟨hw, hne, cr, hcr, hm⟩ := h.money
  obtain ⟨t', ht⟩ := h.table
  obtain ⟨b1, hb1, e1⟩ := marginalBracket_eq h.reach.inv ht x
  obtain ⟨b2, hb2, -, e2⟩ := marginalRate_eq h.reach.inv ht x
  rw [h1] at e1; rw [h2] at e2; cases e1; cases e2
  rw [hb1] at hb2; cases hb2
  obtain ⟨_, e3⟩ := hm x 0
  obtain ⟨_, e4⟩ := hm x' 0
  rw [h3] at e3; rw [h4] at e4; cases e3; cases e4
  have hnn := bracketTax_nonneg (ascending B) fun q hq => h.rates q ((mem_ascending hw).1 hq)
  simp only [zero_mul, sub_zero]
  rw [max_eq_left (hnn _), max_eq_left (hnn _)]
  apply bracketTax_affine hw hne hb1 hbx hx'
  intro k hk hlt
  by_contra hge
  obtain ⟨w, hw', rfl⟩ := List.mem_map.1 hk
  exact hno w hw' ⟨not_lt.1 hge, hlt⟩

example : Sane sampleTax 2000 [(0, 1 / 10), (1000, 3 / 10), (100, 1 / 5)] 0 ∧
    (marginalBracket sampleTax 500 2000).map Prod.fst = .ok 100 ∧
    (marginalRate sampleTax 500 2000).map Prod.fst = .ok (1 / 5) ∧
    (marginalBracket sampleTax 100 2000).map Prod.fst = .ok 0 ∧
    (taxMoney sampleTax 500 2000 0 0).map Prod.fst = .ok 90 ∧
    (taxMoney sampleTax 1000 2000 0 0).map Prod.fst = .ok 190 :=
  ⟨⟨sample_reachable [], ⟨sampleTax, rfl⟩, by decide +kernel, by decide +kernel,
    ⟨1 / 2, by decide +kernel, by decide +kernel⟩⟩, by decide +kernel⟩

end Forecaster.Tax
