import Verif.Props.Inflation
import Verif.Props.TaxHistory
import Verif.Model.Registered
import Verif.Model.Builder
import Verif.Model.Expenses
import Mathlib.Algebra.Order.Ring.Rat

/-!
# Unusable inputs are refused with an exception that names the kind of mistake (C89)

None of these statements mentions an internal helper: they are about the constructors and methods
a program calls (`Tax(...)`, `Tax.__call__`, `TaxMulti.marginal_bracket`, `Scenario(...)`,
`Forecaster.get_param`, `Forecaster.build_param`, `LivingExpensesStrategy.__call__`,
`RRSP.next_contribution_room`), and say which exception each of them raises.
-/

namespace Forecaster.Errors

open Forecaster

variable {K : Type} [Field K] [LinearOrder K] [IsStrictOrderedRing K]

section Tax

open Forecaster.Tax Forecaster.Inflation

/-- A tax treatment without a single table of brackets is refused with `ValueError`, unless both
other tables are given. -/
theorem C89_no_tax_tables (personal creditRates : Dict ℤ K) (adj : Adjust K)
    (h : personal = [] ∨ creditRates = []) :
    Tax.init ([] : Dict ℤ (Dict K K)) personal creditRates adj = .error .valueError := by
  rcases h with rfl | rfl
  · rfl
  · cases personal <;> rfl

/-- When both are given it is accepted, and then every question about money is answered with
`KeyError`, whatever the year. -/
theorem C89_no_tax_tables_later (p c : ℤ × K) (personal creditRates : Dict ℤ K) (adj : Adjust K) :
    ∃ t, Tax.init ([] : Dict ℤ (Dict K K)) (p :: personal) (c :: creditRates) adj = .ok t ∧
      ∀ income year d cr, taxMoney t income year d cr = .error .keyError := by
  refine ⟨⟨[], [], p :: personal, c :: creditRates, adj⟩, rfl, fun income year d cr => ?_⟩
  rfl

/-- A table without brackets, anywhere, is refused with `ValueError`: a constructor that returns
has only seen tables with brackets. -/
theorem C89_empty_table (brackets : Dict ℤ (Dict K K)) (personal creditRates : Dict ℤ K)
    (adj : Adjust K) (y : ℤ) (h : (y, ([] : Dict K K)) ∈ brackets) :
    Tax.init brackets personal creditRates adj = .error .valueError := by
  have key : ∀ (bs : Dict ℤ (Dict K K)) (t : Tax K), (y, ([] : Dict K K)) ∈ bs →
      bs.foldlM (fun t kv => addBrackets t kv.2 kv.1) t = .error .valueError := by
    intro bs
    induction bs with
    | nil => intro t h; simp at h
    | cons b bs ih =>
      intro t h
      rw [List.foldlM_cons]
      rcases List.mem_cons.1 h with h | h
      · subst h; rfl
      · have hb : (∃ t', addBrackets t b.2 b.1 = .ok t') ∨
            addBrackets t b.2 b.1 = .error .valueError := by
          unfold addBrackets accumTable
          cases (Dict.keys b.2).insertionSort (· ≤ ·) with
          | nil => exact Or.inr rfl
          | cons a l => exact Or.inl ⟨_, rfl⟩
        rcases hb with ⟨t', hb⟩ | hb
        · rw [hb]; exact ih t' h
        · rw [hb]; rfl
  unfold Tax.init
  rw [key _ _ h]
  rfl

/-- A deduction per person makes no sense for a sum of money: `TypeError`. -/
theorem C89_deduction_per_person (j : Jur K) (income : K) (year : ℤ) (d : Dict ℕ K)
    (cred : Option (Amount K)) :
    call j (.money income) year (some (.perPerson d)) cred = .error .typeError := rfl

/-- A single number as the deduction or the credit of several people makes no sense either:
`TypeError`, unless there is nobody. -/
theorem C89_one_number_for_people (j : Jur K) (p : Payer K) (ps : List (Payer K)) (year : ℤ)
    (x : K) (other : Option (Amount K)) :
    call j (.people (p :: ps)) year (some (.scalar x)) other = .error .typeError ∧
      ∀ d : Dict ℕ K,
        call j (.people (p :: ps)) year (some (.perPerson d)) (some (.scalar x))
          = .error .typeError ∧
        call j (.people (p :: ps)) year none (some (.scalar x)) = .error .typeError :=
  ⟨rfl, fun _ => ⟨rfl, rfl⟩⟩

/-- A credit rate can be asked of every tax treatment that has been constructed, for every year. -/
theorem C89_credit_rate (brackets : Dict ℤ (Dict K K)) (personal creditRates : Dict ℤ K)
    (adj : Adjust K) (t : Tax K) (h : Tax.init brackets personal creditRates adj = .ok t)
    (year : ℤ) : ∃ r, creditRate t year = .ok r ∧ ∃ y, (y, r) ∈ t.creditRates := by
  have hc : t.creditRates ≠ [] := by
    unfold Tax.init at h
    obtain ⟨t₁, -, h⟩ := Forecaster.Tax.bind_ok_iff.1 h
    obtain ⟨pd, -, h⟩ := Forecaster.Tax.bind_ok_iff.1 h
    obtain ⟨cr, hcr, h⟩ := Forecaster.Tax.bind_ok_iff.1 h
    injection h with h
    subst h
    show cr ≠ []
    unfold orDefault at hcr
    split at hcr
    · injection hcr with hcr; subst hcr; simp
    · split at hcr
      · cases hcr
      · injection hcr with hcr; subst hcr; simp
  have hn := C09_nearest_year t.creditRates year
  unfold creditRate
  cases hy : nearestYear t.creditRates year with
  | none => exact absurd (hn.1.1 hy) hc
  | some y =>
    have hk : y ∈ Dict.keys t.creditRates := by
      have := (hn.2 y).1 hy
      tauto
    obtain ⟨r, hr⟩ : ∃ r, Dict.get? t.creditRates y = some r := by
      rw [← Option.isSome_iff_exists, Dict.get?_isSome]; exact hk
    refine ⟨r, ?_, y, Dict.mem_of_get? hr⟩
    simp only [hr]

example : ∃ t, Tax.init [(2000, [((0 : ℚ), 1 / 10)])] [(2000, 5)] [] (fun _ _ => .ok 1) = .ok t ∧
    creditRate t 1990 = .ok 1 := ⟨_, rfl, rfl⟩

example : Tax.init [(2000, [((0 : ℚ), 1 / 10)]), (2001, [])] [(2000, 5)] [] (fun _ _ => .ok 1)
    = .error .valueError := rfl

/-- Without jurisdictions, a combined tax treatment charges nothing, but cannot name a bracket
(`ValueError`, from `max` of nothing) or combine tables (`TypeError`, from `set.union()`). -/
theorem C89_no_jurisdictions (income : Income K) (x : K) (year : ℤ) (ded cred : Dict ℕ (Amount K)) :
    multiCall ([] : List (Jur K)) income year ded cred = .ok (0, []) ∧
      multiMarginalRate ([] : List (Tax K)) x year = .ok (0, []) ∧
      multiMarginalBracket ([] : List (Tax K)) x year = .error .valueError ∧
      multiTaxBrackets ([] : List (Tax K)) year = .error .typeError :=
  ⟨rfl, rfl, rfl, rfl⟩

end Tax

section Scenario

open Forecaster.Inflation

/-- `build_inflation_adjust` refuses an empty table (`ValueError`: there is no first year) and anything that is
neither `None` nor a dict nor callable (`TypeError`); it accepts everything else. -/
theorem C89_inflation_adjust (a : AdjArg K) :
    ((∃ f, buildInflationAdjust a = .ok f) ↔ a ≠ .dict [] ∧ a ≠ .other) ∧
    (a = .dict [] → ∀ f, buildInflationAdjust a = f → f = .error .valueError) ∧
    (a = .other → ∀ f, buildInflationAdjust a = f → f = .error .typeError) := by
  refine ⟨?_, ?_, ?_⟩
  · cases a with
    | none => exact ⟨fun _ => ⟨by simp, by simp⟩, fun _ => ⟨_, rfl⟩⟩
    | callable f => exact ⟨fun _ => ⟨by simp, by simp⟩, fun _ => ⟨_, rfl⟩⟩
    | other => exact ⟨fun h => (by obtain ⟨_, h⟩ := h; cases h), fun h => absurd rfl h.2⟩
    | dict d =>
      cases d with
      | nil => exact ⟨fun h => (by obtain ⟨_, h⟩ := h; cases h), fun h => absurd rfl h.1⟩
      | cons kv d =>
        refine ⟨fun _ => ⟨by simp, by simp⟩, fun _ => ?_⟩
        unfold buildInflationAdjust
        cases hm : (Dict.keys (kv :: d)).min? with
        | none => exact absurd (List.min?_eq_none_iff.1 hm) (by simp [Dict.keys])
        | some m => exact ⟨_, rfl⟩
  · rintro rfl f h; rw [← h]; rfl
  · rintro rfl f h; rw [← h]; rfl

/-- The adjustment built from a table answers a pair of years with the ratio of their entries; a year
that is not in the table is a `KeyError`, and a base year whose entry is 0 is a `ZeroDivisionError`. -/
theorem C89_inflation_adjust_call (d : Dict ℤ K) (f : ℤ → Option ℤ → Except PyErr K)
    (hf : buildInflationAdjust (.dict d) = .ok f) (target base : ℤ) :
    (∀ t b, Dict.get? d target = some t → Dict.get? d base = some b →
      (b ≠ 0 → ∃ r, f target (some base) = .ok r ∧ r * b = t) ∧
      (b = 0 → f target (some base) = .error .zeroDivisionError)) ∧
    (Dict.get? d target = none ∨ Dict.get? d base = none →
      f target (some base) = .error .keyError) := by
  unfold buildInflationAdjust at hf
  cases hm : (Dict.keys d).min? with
  | none => simp [hm] at hf
  | some m =>
    simp only [hm, Except.ok.injEq] at hf
    subst hf
    refine ⟨fun t b ht hb => ⟨fun h => ⟨t / b, ?_, div_mul_cancel₀ t h⟩, fun h => ?_⟩, fun h => ?_⟩
    · simp [tableRatio, ht, hb, h]
    · simp [tableRatio, ht, hb, h]
    · simp only [Option.getD_some, tableRatio]
      rcases h with h | h
      · rw [h]
      · rw [h]; cases Dict.get? d target <;> rfl

example : ∃ f, buildInflationAdjust (.dict ([(2018, 2), (2019, 0)] : Dict ℤ ℚ)) = .ok f ∧
    f 2018 (some 2019) = .error .zeroDivisionError ∧ f 2019 (some 2018) = .ok 0 ∧
    f 2020 (some 2018) = .error .keyError := ⟨_, rfl, by decide +kernel, by decide +kernel,
      by decide +kernel⟩

/-- A scenario lasts for at least a year and knows all five rates: otherwise `ValueError`, never
anything else. -/
theorem C89_scenario (initialYear numYears : ℤ) (infl stock bond other fees : RateArg K) :
    ((∃ s, Scenario.init initialYear numYears infl stock bond other fees = .ok s) ↔
      1 ≤ numYears ∧ ∀ a ∈ [infl, stock, bond, other, fees], a ≠ RateArg.none) ∧
    ∀ e, Scenario.init initialYear numYears infl stock bond other fees = .error e →
      e = .valueError := by
  unfold Scenario.init
  by_cases hn : numYears < 1
  · simp only [if_pos hn]
    refine ⟨⟨fun h => ?_, fun h => absurd hn (not_lt.2 h.1)⟩, fun e h => ?_⟩
    · obtain ⟨s, h⟩ := h; cases h
    · injection h with h; exact h.symm
  · simp only [if_neg hn]
    have hn' : 1 ≤ numYears := not_lt.1 hn
    have given : ∀ a : RateArg K, a = .none ∨ (a ≠ .none ∧ ∃ r, buildDict initialYear a = .ok r) := by
      intro a
      cases a
      · exact Or.inl rfl
      all_goals exact Or.inr ⟨by simp, _, rfl⟩
    have refused : ∀ x : Except PyErr (Scenario K), x = .error .valueError →
        (∃ a ∈ [infl, stock, bond, other, fees], a = RateArg.none) →
        ((∃ s, x = .ok s) ↔
          1 ≤ numYears ∧ ∀ a ∈ [infl, stock, bond, other, fees], a ≠ RateArg.none) ∧
        ∀ e, x = .error e → e = .valueError := by
      rintro x rfl ⟨a, ha, h⟩
      refine ⟨⟨?_, fun h' => absurd h (h'.2 a ha)⟩, ?_⟩
      · rintro ⟨s, h⟩; cases h
      · intro e h; injection h with h; exact h.symm
    rcases given infl with h1 | ⟨h1, r1, e1⟩
    · exact refused _ (by rw [h1]; rfl) ⟨_, by simp, h1⟩
    rcases given stock with h2 | ⟨h2, r2, e2⟩
    · exact refused _ (by rw [e1, h2]; rfl) ⟨_, by simp, h2⟩
    rcases given bond with h3 | ⟨h3, r3, e3⟩
    · exact refused _ (by rw [e1, e2, h3]; rfl) ⟨_, by simp, h3⟩
    rcases given other with h4 | ⟨h4, r4, e4⟩
    · exact refused _ (by rw [e1, e2, e3, h4]; rfl) ⟨_, by simp, h4⟩
    rcases given fees with h5 | ⟨h5, r5, e5⟩
    · exact refused _ (by rw [e1, e2, e3, e4, h5]; rfl) ⟨_, by simp, h5⟩
    rw [e1, e2, e3, e4, e5]
    refine ⟨⟨fun _ => ⟨hn', ?_⟩, fun _ => ⟨_, rfl⟩⟩, fun e h => by cases h⟩
    simp [h1, h2, h3, h4, h5]

example : (Scenario.init 2000 10 (.scalar (2 / 100 : ℚ)) (.list [1, 2]) (.dict []) .none
    (.scalar 0)).isOk = false ∧ (Scenario.init 2000 10 (.scalar (2 / 100 : ℚ)) (.list [1, 2])
    (.dict []) (.scalar 1) (.scalar 0)).isOk = true := ⟨rfl, rfl⟩

end Scenario

section Registered

open Forecaster.Registered Forecaster.Inflation

/-- An RRSP whose table of accrual maxima is empty cannot say what room there will be: `KeyError`,
until its contributor has passed the conversion age. -/
theorem C89_no_accrual_maximum (e : RrspEnv K) (g : Grp K) (r : Reg K) (age : ℤ) (income : K)
    (hmax : e.const.accrualMax = []) (hage : e.contributorAge (r.acct.year + 1) = .ok age)
    (hinc : e.income r.acct.year = .ok income) :
    rrspNext e g r = if e.const.conversionAge < age then .ok 0 else .error .keyError := by
  unfold rrspNext
  rw [hage, hinc, hmax]
  by_cases h : e.const.conversionAge < age
  · rw [if_pos h]; exact if_pos h
  · rw [if_neg h]; exact if_neg h

end Registered

section Builder

open Forecaster.Builder

/-- A parameter the forecaster does not have is an `AttributeError`, and nothing is built. -/
theorem C89_unknown_parameter (E : Env) (fuel : ℕ) (name : String) (s : St)
    (h : name ∉ Dict.keys s.fc.attrs) :
    getParam E fuel name s = (.error .attributeError, s) := by
  have hg : Dict.get? s.fc.attrs name = none := by
    cases hv : Dict.get? s.fc.attrs name with
    | none => rfl
    | some v => exact absurd (Dict.mem_keys_iff.2 ⟨v, hv⟩) h
  show M.bind _ _ s = _
  unfold M.bind selfAttr
  simp only [hg]

/-- A parameter without a class and without defaults cannot be built: `KeyError`, and nothing is
built. -/
theorem C89_unknown_class (E : Env) (fuel : ℕ) (name : String) (args : List Val)
    (kwargs : Dict String Val) (s : St) (hm : Dict.get? s.memo name = none)
    (hd : Dict.get? s.fc.defaults name = none) (ht : Dict.get? s.fc.types name = none) :
    buildParam E (fuel + 1) name args none kwargs s = (.error .keyError, s) := by
  rw [buildParam]
  simp only [hm]
  show M.bind _ _ s = _
  unfold M.bind fillIn
  simp only [hd]
  show M.bind _ _ s = _
  unfold M.bind typeOf
  simp only [ht]

/-- The hypotheses are those of a misspelt parameter. -/
example (E : Env) : ∃ s : St, "scenario" ∈ Dict.keys s.fc.attrs ∧
    "scenarios" ∉ Dict.keys s.fc.attrs ∧
    getParam E 3 "scenarios" s = (.error .attributeError, s) ∧
    buildParam E 3 "scenarios" [] none [] s = (.error .keyError, s) := by
  refine ⟨⟨⟨[("scenario", .none)], .none, defaultValues, []⟩, [], []⟩, by decide, by decide, ?_, ?_⟩
  · exact C89_unknown_parameter E 3 _ _ (by decide)
  · exact C89_unknown_class E 2 _ _ _ _ rfl (by decide) rfl

end Builder

section Expenses

open Forecaster.Expenses

/-- Living expenses computed from people cannot do without them: `TypeError`, both without the
argument and for an empty group. Only the constant amount needs nobody (but not an empty group). -/
theorem C89_no_people (s : Strat K) (balances : ℕ → Dict ℤ K) (year ret : Option ℤ) :
    Expenses.call s balances (some []) year ret = .error .typeError ∧
    (∀ c, s.adjust year none = .ok c → s.kind ≠ .constLivingExpenses →
      Expenses.call s balances none year ret = .error .typeError) ∧
    (∀ c, s.adjust year none = .ok c → s.kind = .constLivingExpenses →
      Expenses.call s balances none year ret = .ok (max (s.baseAmount * c) 0)) := by
  refine ⟨rfl, fun c hc hk => ?_, fun c hc hk => ?_⟩
  · unfold Expenses.call allAccounts formula
    cases h : s.kind <;> simp_all [each]
  · unfold Expenses.call allAccounts formula
    rw [hk]
    simp only [hc]
    rfl

end Expenses

end Forecaster.Errors
