import Verif.Model.Shipped
import Verif.Props.TaxPeople
import Verif.Props.TaxHistory
import Mathlib.Tactic.Linarith
import Mathlib.Tactic.FieldSimp
import Mathlib.Tactic.NormNum
import Mathlib.Tactic.Positivity
import Mathlib.Data.Rat.Floor
import Mathlib.Algebra.Order.Ring.Rat

/-!
# Canadian tax with the shipped constants (C75)
-/

set_option linter.unusedSectionVars false

namespace Forecaster.Shipped

open Forecaster Forecaster.Inflation

variable {K : Type} [Field K] [LinearOrder K] [IsStrictOrderedRing K]

/-! ## Specification -/

/-- **Specification.** The shipped rates, for `z` dollars of 2017: 15% of everything above zero, 5.5%
more above 45961.23 and again above 91921.45, 3% more above 142493.82, 4% more above 203000. -/
def rates2017 (z : K) : K :=
  15 / 100 * max z 0 + 55 / 1000 * max (z - 4596123 / 100) 0 + 55 / 1000 * max (z - 9192145 / 100) 0
    + 3 / 100 * max (z - 14249382 / 100) 0 + 4 / 100 * max (z - 203000) 0

/-- **Specification.** Basic personal amount, rate of credits, cap of the pension credit and spousal
amount in dollars of 2017. -/
def basic : Place → K | .federal => 11635 | .bc => 10208
def atRate : Place → K | .federal => 15 / 100 | .bc => 506 / 10000
def pension : Place → K | .federal => 2000 | .bc => 1000
def spousal : Place → K | .federal => 11635 | .bc => 9614

/-- **Specification.** The spousal credit, in dollars of 2017, of somebody with the given income net
of deductions, from the spouse's: nothing for the spouse with the lower income (or, of two with equal
incomes, for the one with `tie`), what the spouse's income leaves of the spousal amount for the
other. -/
def spousal2017 (p : Place) (net spouseNet : K) (tie : Bool) : K :=
  if net < spouseNet ∨ net = spouseNet ∧ tie = true then 0 else max (spousal p - spouseNet) 0

/-- **Specification.** The tax in one jurisdiction, in dollars of 2017: the rates on the income less
the basic amount and (twice, see C49) the person's deductions, less (twice) the person's credits, the
capped pension credit and the spousal credit at the rate of credits. -/
def tax2017 (p : Place) (income deductions credits rrspIncome spousalCredit : K) : K :=
  max (rates2017 (income - basic p - 2 * deductions)
    - atRate p * (2 * credits + min rrspIncome (pension p) + spousalCredit)) 0

/-! ## The rates -/

theorem max_scale {r : K} (hr : 0 < r) (z : K) : max z 0 = r * max (z / r) 0 := by
  rw [mul_max_of_nonneg _ _ hr.le, mul_zero, mul_div_cancel₀ _ hr.ne']

theorem max_shift {r : K} (hr : 0 < r) (z b : K) : max (z - b * r) 0 = r * max (z / r - b) 0 := by
  rw [max_scale hr]
  congr 2
  field_simp

theorem max_min_sub {x b b' : K} (h : b ≤ b') :
    max (min x b' - b) 0 = max (x - b) 0 - max (x - b') 0 := by
  rcases le_total x b' with h1 | h1
  · rw [min_eq_left h1, max_eq_right (sub_nonpos.2 h1), sub_zero]
  · rw [min_eq_right h1, max_eq_left (by linarith), max_eq_left (by linarith),
      max_eq_left (by linarith)]
    ring

theorem ascending_of_sorted {B : Dict K K} (h : B.Pairwise fun a b => a.1 < b.1) :
    Tax.ascending B = B := by
  have hk : (Dict.keys B).Pairwise (· < ·) := by
    unfold Dict.keys; rw [List.pairwise_map]; exact h
  have hwf : Dict.WF B := by
    unfold Dict.WF
    exact hk.imp fun h => h.ne
  unfold Tax.ascending
  rw [List.Pairwise.insertionSort_eq (hk.imp fun h => h.le)]
  unfold Dict.keys
  rw [List.map_map]
  conv_rhs => rw [← List.map_id B]
  apply List.map_congr_left
  intro kv hkv
  have : Dict.get? B kv.1 = some kv.2 := Dict.get?_of_mem hwf hkv
  simp [Dict.val, this]

/-- The table of a year, from that of 2017. -/
def tableOf (pl : Place) (r : K) : Dict K K :=
  ((Dict.get? (taxBrackets pl) 2017).getD []).map fun kv => (kv.1 * r, kv.2)

theorem tableOf_eq (pl : Place) (r : K) : tableOf pl r =
    [(0 * r, 15 / 100), (4596123 / 100 * r, 205 / 1000), (9192145 / 100 * r, 26 / 100),
      (14249382 / 100 * r, 29 / 100), (203000 * r, 33 / 100)] := by
  cases pl <;> rfl

theorem bracketTax_table (pl : Place) {r : K} (hr : 0 < r) (z : K) :
    Tax.bracketTax (Tax.ascending (tableOf pl r)) z = r * rates2017 (z / r) := by
  have hs : (tableOf pl r).Pairwise fun a b => a.1 < b.1 := by
    rw [tableOf_eq]
    have : ∀ {a b : K}, a < b → a * r < b * r := fun h => mul_lt_mul_of_pos_right h hr
    simp only [List.pairwise_cons, List.mem_cons, List.not_mem_nil, or_false, forall_eq_or_imp,
      forall_eq, List.Pairwise.nil, and_true, IsEmpty.forall_iff, implies_true]
    refine ⟨⟨?_, ?_, ?_, ?_⟩, ⟨?_, ?_, ?_⟩, ⟨?_, ?_⟩, ?_⟩ <;> exact this (by norm_num)
  rw [ascending_of_sorted hs, tableOf_eq]
  simp only [Tax.bracketTax]
  have le : ∀ {a b : K}, a ≤ b → a * r ≤ b * r := fun h => mul_le_mul_of_nonneg_right h hr.le
  rw [max_min_sub (le (by norm_num)), max_min_sub (le (by norm_num)), max_min_sub (le (by norm_num)),
    max_min_sub (le (by norm_num)), max_shift hr, max_shift hr, max_shift hr, max_shift hr,
    max_shift hr]
  unfold rates2017
  rw [sub_zero]
  ring

theorem table_nonneg (pl : Place) (r : K) : ∀ kv ∈ tableOf pl r, 0 ≤ kv.2 := by
  rw [tableOf_eq]
  simp only [List.mem_cons, List.not_mem_nil, or_false, forall_eq_or_imp, forall_eq]
  refine ⟨?_, ?_, ?_, ?_, ?_⟩ <;> norm_num

/-! ## The objects -/

theorem nearest_single {V : Type} (m : ℤ) (v : V) (y : ℤ) : nearestYear [(m, v)] y = some m := by
  rw [(C09_nearest_year [(m, v)] y).2 m]
  refine ⟨by simp [Dict.keys], ?_⟩
  rcases lt_trichotomy m y with h | h | h
  · exact Or.inr (.inl ⟨by simp [Dict.keys, h.ne'], h, by simp [Dict.keys]⟩)
  · exact Or.inl h
  · exact Or.inr (.inr ⟨h, by simp [Dict.keys]⟩)

/-- An inflation adjustment by a price index `idx`. -/
structure Index (adj : Adjust K) (idx : ℤ → K) : Prop where
  pos : ∀ y, 0 < idx y
  adj : ∀ y b, adj y b = .ok (idx y / idx b)

theorem brackets_eq (pl : Place) : ∃ B : Dict K K, taxBrackets pl = [(2017, B)] ∧ Dict.WF B ∧
    ∀ r : K, B.map (fun kv => (kv.1 * r, kv.2)) = tableOf pl r := by
  cases pl <;> refine ⟨_, rfl, ?_, fun _ => rfl⟩ <;>
  · unfold Dict.WF
    apply List.Pairwise.imp (R := (· < ·)) (fun h => ne_of_lt h)
    simp only [Dict.keys, List.map_cons, List.map_nil, List.pairwise_cons, List.mem_cons,
      List.not_mem_nil, or_false, forall_eq_or_imp,
      forall_eq, List.Pairwise.nil, and_true, IsEmpty.forall_iff, implies_true]
    norm_num

theorem setting (pl : Place) {adj : Adjust K} {idx : ℤ → K} (I : Index adj idx) :
    Tax.Setting (taxBrackets pl) adj idx := by
  obtain ⟨B, hB, hwf, -⟩ := brackets_eq (K := K) pl
  refine ⟨⟨?_, ?_⟩, ?_, I.pos, I.adj⟩
  · rw [hB]; simp [Dict.WF, Dict.keys]
  · rw [hB]; simpa using hwf
  · rw [hB]; simp

theorem jurisdiction_ok (pl : Place) (adj : Adjust K) : ∃ t, jurisdiction pl adj = .ok t := by
  obtain ⟨B, hB, hwf, hne⟩ := brackets_eq (K := K) pl
  have hB0 : B ≠ [] := by
    have := hne 1
    rintro rfl
    rw [tableOf_eq] at this
    cases this
  obtain ⟨p, rest, -, ha⟩ := Tax.accumTable_eq hwf hB0
  unfold jurisdiction Tax.init
  rw [hB]
  simp only [List.foldlM_cons, List.foldlM_nil, Tax.addBrackets, ha, ok_bind, except_pure]
  cases pl <;> exact ⟨_, rfl⟩

/-- A constant amount of 2017 in another year's prices. -/
theorem extend_single {adj : Adjust K} {idx : ℤ → K} (I : Index adj idx) (v : K) (y : ℤ) :
    extendInflationAdjusted (Dict.mapVals Val.scalar [(2017, v)]) adj y
      = .ok (.scalar (v * (idx y / idx 2017))) := by
  obtain ⟨x1, x2, -⟩ := C10_extend (Dict.mapVals Val.scalar [(2017, v)]) adj y
  by_cases hy : y = 2017
  · subst hy
    rw [x1 (.scalar v) (by simp [Dict.mapVals, Dict.get?]), div_self (I.pos _).ne', mul_one]
  · obtain ⟨b, w, -, hb, hw, hc⟩ := x2 (by simpa [Dict.mapVals, Dict.keys] using hy)
      (by simp [Dict.mapVals])
    simp only [Dict.mapVals, List.map_cons, List.map_nil, nearest_single, Option.some.injEq] at hb
    subst hb
    simp only [Dict.mapVals, List.map_cons, List.map_nil, Dict.get?, if_true,
      Option.some.injEq] at hw
    subst hw
    obtain ⟨w, h1, h2⟩ := hc _ (I.adj y 2017)
    rw [h1]
    cases h2
    rfl

theorem taxMoney_eq (pl : Place) {adj : Adjust K} {idx : ℤ → K} (I : Index adj idx) {t : Tax.Tax K}
    (ht : jurisdiction pl adj = .ok t) (qs : List (Tax.Query K))
    (hqs : ∀ q ∈ qs, q.AccumSafe (taxBrackets pl)) (y : ℤ) (x d c : K) (hc : 0 ≤ c) :
    ∃ t', Tax.taxMoney (Tax.run t qs) x y d c
      = .ok (max ((idx y / idx 2017) * rates2017 ((x - d) / (idx y / idx 2017)) - c * atRate pl) 0, t')
    := by
  have S := setting pl I
  obtain ⟨o, B0, t', h1, h2, h3⟩ := Tax.C30_table S ht qs hqs y
  obtain ⟨B, hB, hwf, hsc⟩ := brackets_eq (K := K) pl
  rw [hB, nearest_single] at h1
  cases h1
  rw [hB] at h2
  simp only [Dict.get?, if_true, Option.some.injEq] at h2
  subst h2
  rw [hsc] at h3
  have hcr : Tax.creditRate (Tax.run t qs) y = .ok (atRate pl) := by
    refine (Tax.C30_deduction_and_credit_rate S ht qs hqs y).2.2.2 2017 (atRate pl) ?_ ?_
    · cases pl <;> exact nearest_single _ _ _
    · cases pl <;> simp [creditRate, atRate, Dict.get?]
  refine ⟨t', ?_⟩
  rw [Tax.C28_tax_is_bracket_sum' ⟨_, _, _, _, _, qs, S.args, ht, rfl⟩ h3 hcr x d c
    (table_nonneg pl _) hc (by cases pl <;> norm_num [atRate]),
    bracketTax_table pl (div_pos (I.pos _) (I.pos _))]

theorem deduction_eq (pl : Place) {adj : Adjust K} {idx : ℤ → K} (I : Index adj idx) {t : Tax.Tax K}
    (ht : jurisdiction pl adj = .ok t) (qs : List (Tax.Query K))
    (hqs : ∀ q ∈ qs, q.AccumSafe (taxBrackets pl)) (y : ℤ) :
    Tax.personalDeduction (Tax.run t qs) y = .ok (basic pl * (idx y / idx 2017)) := by
  refine (Tax.C30_deduction_and_credit_rate (setting pl I) ht qs hqs y).2.1 2017 (basic pl) ?_ ?_
  · cases pl <;> exact nearest_single _ _ _
  · cases pl <;> simp [personalDeduction, basic, Dict.get?]

theorem run_adjust (pl : Place) {adj : Adjust K} {idx : ℤ → K} (I : Index adj idx) {t : Tax.Tax K}
    (ht : jurisdiction pl adj = .ok t) (qs : List (Tax.Query K))
    (hqs : ∀ q ∈ qs, q.AccumSafe (taxBrackets pl)) : (Tax.run t qs).adjust = adj :=
  (Tax.run_good (setting pl I) (Tax.init_good (setting pl I) ht) qs hqs).eadj

/-- The tax of one jurisdiction. `sc` is the spousal credit in dollars of 2017. -/
theorem place_tax (pl : Place) {adj : Adjust K} {idx : ℤ → K} (I : Index adj idx) {t : Tax.Tax K}
    (ht : jurisdiction pl adj = .ok t) (qs : List (Tax.Query K))
    (hqs : ∀ q ∈ qs, q.AccumSafe (taxBrackets pl)) (hh : Household K) (person : Tax.Payer K) (y : ℤ)
    (r income d c sc : K) (hr : r = idx y / idx 2017) (h1 : person.taxableIncome y = some income)
    (h2 : person.taxDeduction y = some d) (h3 : person.taxCredit y = some c) (hc : 0 ≤ c)
    (hs : (person.spouse.bind hh.payer = none ∧ sc = 0) ∨
      ∃ s ds, person.spouse.bind hh.payer = some s ∧ s.taxDeduction y = some ds ∧
        sc = spousal2017 pl ((hh.income person.id - d) / r - basic pl)
          ((hh.income s.id - ds) / r - basic pl) (hh.idLt person.id s.id)) :
    ∃ j, Tax.call (Tax.canadaJur (canEnv pl hh) (Tax.run t qs)) (.person person) y none none
      = .ok (r * tax2017 pl (income / r) (d / r) (c / r) (|(hh.rrspOutflows person.id).sum| / r) sc, j)
    := by
  have hr0 : 0 < r := hr ▸ div_pos (I.pos _) (I.pos _)
  have hpen : Tax.pensionCredit (canEnv pl hh).pensionCap (Tax.run t qs).adjust
      ((canEnv pl hh).rrspOutflows person.id) y
      = .ok (min |(hh.rrspOutflows person.id).sum| (pension pl * r)) := by
    rw [run_adjust pl I ht qs hqs]
    unfold Tax.pensionCredit
    have : (canEnv pl hh).pensionCap = [(2017, pension pl)] := by cases pl <;> rfl
    rw [this, extend_single I, ok_bind, ← hr]
    rfl
  have hbasic := deduction_eq pl I ht qs hqs y
  rw [← hr] at hbasic
  have hcred : Tax.canadaCredit (canEnv pl hh) (Tax.run t qs) person y
      = .ok (c + min |(hh.rrspOutflows person.id).sum| (pension pl * r) + r * sc) := by
    unfold Tax.canadaCredit
    rw [hpen]
    simp only [Tax.creditFor, Tax.hist, h3, ok_bind]
    rcases hs with ⟨hs, rfl⟩ | ⟨s, ds, hs, hds, rfl⟩
    · have : person.spouse.bind (canEnv pl hh).payer = none := hs
      rw [this, mul_zero, add_zero]
    · have : person.spouse.bind (canEnv pl hh).payer = some s := hs
      rw [this]
      simp only [Tax.spousalCredit]
      have hsa : (canEnv pl hh).spousalAmount = [(2017, spousal pl)] := by cases pl <;> rfl
      rw [hsa, run_adjust pl I ht qs hqs, extend_single I]
      simp only [ok_bind, Tax.deductionFor, hbasic, Tax.hist, h2, hds, ← hr]
      have e1 : (canEnv pl hh).income person.id - (basic pl * r + d)
          = r * ((hh.income person.id - d) / r - basic pl) := by
        have : (canEnv pl hh).income person.id = hh.income person.id := rfl
        rw [this]; field_simp; ring
      have e2 : (canEnv pl hh).income s.id - (basic pl * r + ds)
          = r * ((hh.income s.id - ds) / r - basic pl) := by
        have : (canEnv pl hh).income s.id = hh.income s.id := rfl
        rw [this]; field_simp; ring
      rw [e1, e2]
      have e3 : (canEnv pl hh).idLt person.id s.id = hh.idLt person.id s.id := rfl
      rw [e3]
      unfold spousal2017
      generalize (hh.income person.id - d) / r - basic pl = u
      generalize (hh.income s.id - ds) / r - basic pl = w
      by_cases g1 : u < w
      · rw [if_pos (mul_lt_mul_of_pos_left g1 hr0), if_pos (Or.inl g1), ok_bind, mul_zero]
      · have g1' : ¬ r * u < r * w := fun h => g1 (lt_of_mul_lt_mul_left h hr0.le)
        rw [if_neg g1']
        by_cases g2 : u = w ∧ hh.idLt person.id s.id = true
        · rw [if_pos ⟨by rw [g2.1], g2.2⟩, if_pos (Or.inr g2), ok_bind, mul_zero]
        · have g2' : ¬ (r * u = r * w ∧ hh.idLt person.id s.id = true) := fun h =>
            g2 ⟨mul_left_cancel₀ hr0.ne' h.1, h.2⟩
          rw [if_neg g2', if_neg (not_or.2 ⟨g1, g2⟩), ok_bind]
          congr 2
          rw [mul_max_of_nonneg _ _ hr0.le]
          congr 1 <;> ring
  have hsc : 0 ≤ sc := by
    rcases hs with ⟨-, rfl⟩ | ⟨s, ds, -, -, rfl⟩
    · exact le_rfl
    · unfold spousal2017
      split_ifs
      · exact le_rfl
      · exact le_max_right _ _
  have hpc : 0 ≤ min |(hh.rrspOutflows person.id).sum| (pension pl * r) :=
    le_min (abs_nonneg _) (mul_nonneg (by cases pl <;> norm_num [pension]) hr0.le)
  obtain ⟨t', hm⟩ := taxMoney_eq pl I ht qs hqs y income (d + (basic pl * r + d) + 0)
    (c + (c + min |(hh.rrspOutflows person.id).sum| (pension pl * r) + r * sc) + 0)
    (by have := mul_nonneg hr0.le hsc; linarith)
  rw [← hr] at hm
  refine ⟨{ Tax.canadaJur (canEnv pl hh) (Tax.run t qs) with tax := t' }, ?_⟩
  unfold Tax.call
  simp only [Tax.Amount.asScalar, ok_bind, Tax.taxPerson, Tax.hist, h1, h2, h3, Tax.canadaJur, hcred,
    Tax.deductionFor, hbasic]
  rw [hm, ok_bind]
  congr 2
  unfold tax2017
  rw [mul_max_of_nonneg _ _ hr0.le, mul_zero]
  congr 1
  have e4 : (income - (d + (basic pl * r + d) + 0)) / r = income / r - basic pl - 2 * (d / r) := by
    field_simp; ring
  have e5 : min |(hh.rrspOutflows person.id).sum| (pension pl * r)
      = r * min (|(hh.rrspOutflows person.id).sum| / r) (pension pl) := by
    rw [mul_min_of_nonneg _ _ hr0.le]
    congr 1
    · field_simp
    · ring
  rw [e4, e5]
  have e6 : c = r * (c / r) := by field_simp
  conv_lhs => rw [e6]
  ring

/-- **C75.** The Canadian tax of a person without a spouse, after any history of questions to the tax
object, for any price index: the federal plus the provincial tax, calculated in dollars of 2017. -/
theorem C75_tax_of_a_single {adj : Adjust K} {idx : ℤ → K} (I : Index adj idx) {f p : Tax.Tax K}
    (ht : taxCanada adj = .ok (f, p)) (qf qp : List (Tax.Query K))
    (hqf : ∀ q ∈ qf, q.AccumSafe (taxBrackets .federal))
    (hqp : ∀ q ∈ qp, q.AccumSafe (taxBrackets .bc)) (hh : Household K) (person : Tax.Payer K) (y : ℤ)
    (income d c : K) (h1 : person.taxableIncome y = some income)
    (h2 : person.taxDeduction y = some d) (h3 : person.taxCredit y = some c) (hc : 0 ≤ c)
    (hs : person.spouse = none) :
    let prices := idx y / idx 2017
    let rrspIncome := |(hh.rrspOutflows person.id).sum|
    canadianTax hh (Tax.run f qf) (Tax.run p qp) person y = .ok (prices *
      (tax2017 .federal (income / prices) (d / prices) (c / prices) (rrspIncome / prices) 0
        + tax2017 .bc (income / prices) (d / prices) (c / prices) (rrspIncome / prices) 0)) := by
  intro r rr
  simp only [taxCanada, Tax.bind_ok_iff, Except.ok.injEq, Prod.mk.injEq] at ht
  obtain ⟨f', hf, p', hp, rfl, rfl⟩ := ht
  have hs' : person.spouse.bind hh.payer = none := by rw [hs]; rfl
  obtain ⟨j1, e1⟩ := place_tax .federal I hf qf hqf hh person y r income d c 0 rfl h1 h2 h3 hc
    (.inl ⟨hs', rfl⟩)
  obtain ⟨j2, e2⟩ := place_tax .bc I hp qp hqp hh person y r income d c 0 rfl h1 h2 h3 hc
    (.inl ⟨hs', rfl⟩)
  unfold canadianTax
  rw [Tax.C50_canada_is_federal_plus_provincial _ _ _ _ _ _ _ _ _ _ _ _ e1 e2]
  simp only [Except.map, mul_add]
  rfl

/-- **C75.** The same for a person with a spouse: the spousal credit looks at the incomes of both,
each net of the basic amount and (once) of the deductions. -/
theorem C75_tax_with_a_spouse {adj : Adjust K} {idx : ℤ → K} (I : Index adj idx) {f p : Tax.Tax K}
    (ht : taxCanada adj = .ok (f, p)) (qf qp : List (Tax.Query K))
    (hqf : ∀ q ∈ qf, q.AccumSafe (taxBrackets .federal))
    (hqp : ∀ q ∈ qp, q.AccumSafe (taxBrackets .bc)) (hh : Household K) (person s : Tax.Payer K)
    (y : ℤ) (income d c ds : K) (h1 : person.taxableIncome y = some income)
    (h2 : person.taxDeduction y = some d) (h3 : person.taxCredit y = some c) (hc : 0 ≤ c)
    (hs : person.spouse = some s.id) (hp : hh.payer s.id = some s)
    (hds : s.taxDeduction y = some ds) :
    let prices := idx y / idx 2017
    let rrspIncome := |(hh.rrspOutflows person.id).sum|
    let tax := fun pl => tax2017 pl (income / prices) (d / prices) (c / prices) (rrspIncome / prices)
      (spousal2017 pl ((hh.income person.id - d) / prices - basic pl)
        ((hh.income s.id - ds) / prices - basic pl) (hh.idLt person.id s.id))
    canadianTax hh (Tax.run f qf) (Tax.run p qp) person y
      = .ok (prices * (tax .federal + tax .bc)) := by
  intro r rr tax
  simp only [taxCanada, Tax.bind_ok_iff, Except.ok.injEq, Prod.mk.injEq] at ht
  obtain ⟨f', hf, p', hp', rfl, rfl⟩ := ht
  have hs' : person.spouse.bind hh.payer = some s := by rw [hs]; exact hp
  obtain ⟨j1, e1⟩ := place_tax .federal I hf qf hqf hh person y r income d c _ rfl h1 h2 h3 hc
    (.inr ⟨s, ds, hs', hds, rfl⟩)
  obtain ⟨j2, e2⟩ := place_tax .bc I hp' qp hqp hh person y r income d c _ rfl h1 h2 h3 hc
    (.inr ⟨s, ds, hs', hds, rfl⟩)
  unfold canadianTax
  rw [Tax.C50_canada_is_federal_plus_provincial _ _ _ _ _ _ _ _ _ _ _ _ e1 e2]
  simp only [Except.map, mul_add]
  rfl

/-- **C75.** The tax object can be built with any inflation adjustment. -/
theorem C75_can_be_built (adj : Adjust K) : ∃ f p, taxCanada adj = .ok (f, p) := by
  obtain ⟨f, hf⟩ := jurisdiction_ok .federal adj
  obtain ⟨p, hp⟩ := jurisdiction_ok .bc adj
  exact ⟨f, p, by simp [taxCanada, hf, hp]⟩

/-! ## What follows -/

theorem pos_part_mono {x y : K} (h : x ≤ y) : max x 0 ≤ max y 0 := max_le_max h le_rfl

theorem pos_part_lip {x y : K} (h : x ≤ y) : max y 0 - max x 0 ≤ y - x := by
  rcases le_total y 0 with a | a
  · rw [max_eq_right a, max_eq_right (h.trans a)]; linarith
  · rw [max_eq_left a]; linarith [le_max_left x 0]

theorem rates_mono {x y : K} (h : x ≤ y) : 0 ≤ rates2017 y - rates2017 x ∧
    rates2017 y - rates2017 x ≤ 33 / 100 * (y - x) := by
  unfold rates2017
  have a1 := pos_part_mono h
  have b1 := pos_part_lip h
  have a2 := pos_part_mono (sub_le_sub_right h (4596123 / 100))
  have b2 := pos_part_lip (sub_le_sub_right h (4596123 / 100))
  have a3 := pos_part_mono (sub_le_sub_right h (9192145 / 100))
  have b3 := pos_part_lip (sub_le_sub_right h (9192145 / 100))
  have a4 := pos_part_mono (sub_le_sub_right h (14249382 / 100))
  have b4 := pos_part_lip (sub_le_sub_right h (14249382 / 100))
  have a5 := pos_part_mono (sub_le_sub_right h 203000)
  have b5 := pos_part_lip (sub_le_sub_right h 203000)
  constructor <;> linarith

theorem tax2017_mono (pl : Place) {x y : K} (h : x ≤ y) (d c o s : K) :
    0 ≤ tax2017 pl y d c o s - tax2017 pl x d c o s ∧
    tax2017 pl y d c o s - tax2017 pl x d c o s ≤ 33 / 100 * (y - x) := by
  obtain ⟨h1, h2⟩ := rates_mono (show x - basic pl - 2 * d ≤ y - basic pl - 2 * d by linarith)
  unfold tax2017
  have a := pos_part_mono (show rates2017 (x - basic pl - 2 * d)
      - atRate pl * (2 * c + min o (pension pl) + s) ≤ rates2017 (y - basic pl - 2 * d)
      - atRate pl * (2 * c + min o (pension pl) + s) by linarith)
  have b := pos_part_lip (show rates2017 (x - basic pl - 2 * d)
      - atRate pl * (2 * c + min o (pension pl) + s) ≤ rates2017 (y - basic pl - 2 * d)
      - atRate pl * (2 * c + min o (pension pl) + s) by linarith)
  constructor <;> linarith

/-- **C75.** Earning more never lowers the tax, and at least 34% of any extra income is kept: the
marginal rate never exceeds 66%. -/
theorem C75_extra_income {adj : Adjust K} {idx : ℤ → K} (I : Index adj idx) {f p : Tax.Tax K}
    (ht : taxCanada adj = .ok (f, p)) (qf qp : List (Tax.Query K))
    (hqf : ∀ q ∈ qf, q.AccumSafe (taxBrackets .federal))
    (hqp : ∀ q ∈ qp, q.AccumSafe (taxBrackets .bc)) (hh : Household K) (a b : Tax.Payer K) (y : ℤ)
    (x1 x2 d c : K) (hid : a.id = b.id) (hsa : a.spouse = none) (hsb : b.spouse = none)
    (ha : a.taxableIncome y = some x1) (hb : b.taxableIncome y = some x2)
    (hda : a.taxDeduction y = some d) (hdb : b.taxDeduction y = some d)
    (hca : a.taxCredit y = some c) (hcb : b.taxCredit y = some c) (hc : 0 ≤ c) (hx : x1 ≤ x2) :
    ∃ t1 t2, canadianTax hh (Tax.run f qf) (Tax.run p qp) a y = .ok t1 ∧
      canadianTax hh (Tax.run f qf) (Tax.run p qp) b y = .ok t2 ∧
      0 ≤ t1 ∧ t1 ≤ t2 ∧ t2 - t1 ≤ 66 / 100 * (x2 - x1) := by
  have e1 := C75_tax_of_a_single I ht qf qp hqf hqp hh a y x1 d c ha hda hca hc hsa
  have e2 := C75_tax_of_a_single I ht qf qp hqf hqp hh b y x2 d c hb hdb hcb hc hsb
  have hr : 0 < idx y / idx 2017 := div_pos (I.pos _) (I.pos _)
  simp only [hid] at e1
  simp only at e2
  have hx' : x1 / (idx y / idx 2017) ≤ x2 / (idx y / idx 2017) := div_le_div_of_nonneg_right hx hr.le
  obtain ⟨m1, m2⟩ := tax2017_mono .federal hx' (d / (idx y / idx 2017)) (c / (idx y / idx 2017))
    (|(hh.rrspOutflows b.id).sum| / (idx y / idx 2017)) 0
  obtain ⟨m3, m4⟩ := tax2017_mono .bc hx' (d / (idx y / idx 2017)) (c / (idx y / idx 2017))
    (|(hh.rrspOutflows b.id).sum| / (idx y / idx 2017)) 0
  refine ⟨_, _, e1, e2, ?_, ?_, ?_⟩
  · exact mul_nonneg hr.le (add_nonneg (le_max_right _ _) (le_max_right _ _))
  · exact mul_le_mul_of_nonneg_left (by linarith) hr.le
  · rw [← mul_sub]
    calc _ ≤ (idx y / idx 2017)
          * (66 / 100 * (x2 / (idx y / idx 2017) - x1 / (idx y / idx 2017))) :=
        mul_le_mul_of_nonneg_left (by linarith) hr.le
      _ = 66 / 100 * (x2 - x1) := by
        generalize idx y / idx 2017 = r at hr
        have := hr.ne'
        field_simp

/-- **C75.** Without deductions, credits and RRSP income one pays tax exactly from the provincial basic
amount of 10208 dollars of 2017 on; and beyond 214635 dollars of 2017 exactly 66% of any further income
(in British Columbia the combined top rate is 47.7%; the shipped provincial brackets are a copy of the
federal ones). -/
theorem C75_free_amount_and_top_rate {adj : Adjust K} {idx : ℤ → K} (I : Index adj idx)
    {f p : Tax.Tax K} (ht : taxCanada adj = .ok (f, p)) (qf qp : List (Tax.Query K))
    (hqf : ∀ q ∈ qf, q.AccumSafe (taxBrackets .federal))
    (hqp : ∀ q ∈ qp, q.AccumSafe (taxBrackets .bc)) (hh : Household K) (a : Tax.Payer K) (y : ℤ)
    (x : K) (hsa : a.spouse = none) (ha : a.taxableIncome y = some x)
    (hda : a.taxDeduction y = some 0) (hca : a.taxCredit y = some 0)
    (hrr : (hh.rrspOutflows a.id).sum = 0) :
    ∃ t, canadianTax hh (Tax.run f qf) (Tax.run p qp) a y = .ok t ∧
      (0 < t ↔ 10208 * (idx y / idx 2017) < x) ∧
      (214635 * (idx y / idx 2017) ≤ x → t = 66 / 100 * x - 23582457 / 500 * (idx y / idx 2017))
    := by
  have e1 := C75_tax_of_a_single I ht qf qp hqf hqp hh a y x 0 0 ha hda hca le_rfl hsa
  have hr : 0 < idx y / idx 2017 := div_pos (I.pos _) (I.pos _)
  simp only [hrr, abs_zero, zero_div] at e1
  generalize hR : idx y / idx 2017 = r at *
  obtain ⟨z, rfl⟩ : ∃ z, x = r * z := ⟨x / r, by field_simp⟩
  rw [mul_div_cancel_left₀ _ hr.ne'] at e1
  refine ⟨_, e1, ?_, ?_⟩
  · rw [mul_comm 10208 r, mul_lt_mul_iff_right₀ hr, mul_pos_iff_of_pos_left hr]
    have hm : ∀ pl : Place, min (0 : K) (pension pl) = 0 := fun pl =>
      min_eq_left (by cases pl <;> norm_num [pension])
    simp only [tax2017, hm, mul_zero, add_zero, sub_zero, basic]
    constructor
    · intro h
      by_contra hc
      push Not at hc
      have r0 : ∀ w : K, w ≤ 0 → rates2017 w = 0 := by
        intro w hw
        unfold rates2017
        rw [max_eq_right hw, max_eq_right (by linarith), max_eq_right (by linarith),
          max_eq_right (by linarith), max_eq_right (by linarith)]
        ring
      rw [r0 _ (by linarith), r0 _ (by linarith)] at h
      simp at h
    · intro h
      have r0 : ∀ w : K, 0 ≤ rates2017 w := by
        intro w
        unfold rates2017
        have := le_max_right w 0
        have := le_max_right (w - 4596123 / 100) 0
        have := le_max_right (w - 9192145 / 100) 0
        have := le_max_right (w - 14249382 / 100) 0
        have := le_max_right (w - 203000) 0
        linarith
      have r1 : 0 < rates2017 (z - 10208) := by
        unfold rates2017
        have := le_max_left (z - 10208) 0
        have := le_max_right (z - 10208 - 4596123 / 100) 0
        have := le_max_right (z - 10208 - 9192145 / 100) 0
        have := le_max_right (z - 10208 - 14249382 / 100) 0
        have := le_max_right (z - 10208 - 203000) 0
        linarith
      rw [max_eq_left (r0 _), max_eq_left (r0 _)]
      linarith [r0 (z - 11635)]
  · intro h
    rw [mul_comm 214635 r, mul_le_mul_iff_right₀ hr] at h
    have hm : ∀ pl : Place, min (0 : K) (pension pl) = 0 := fun pl =>
      min_eq_left (by cases pl <;> norm_num [pension])
    simp only [tax2017, hm, mul_zero, add_zero, sub_zero, basic]
    have top : ∀ w : K, 203000 ≤ w → rates2017 w = 33 / 100 * w - 9989181 / 500 ∧
        0 ≤ rates2017 w := by
      intro w hw
      have : rates2017 w = 33 / 100 * w - 9989181 / 500 := by
        unfold rates2017
        rw [max_eq_left (by linarith), max_eq_left (by linarith), max_eq_left (by linarith),
          max_eq_left (by linarith), max_eq_left (by linarith)]
        ring
      exact ⟨this, by rw [this]; linarith⟩
    rw [max_eq_left (top _ (by linarith)).2, max_eq_left (top _ (by linarith)).2,
      (top _ (by linarith)).1, (top _ (by linarith)).1]
    ring

/-- A couple with incomes of 100000 and 5000 dollars. -/
def couple : Household ℚ :=
  ⟨fun _ => [-3000], fun i => if i = 0 then some ⟨0, some 1, fun _ => some 100000, fun _ => some 0,
      fun _ => some 0⟩ else some ⟨1, some 0, fun _ => some 5000, fun _ => some 0, fun _ => some 0⟩,
    fun i => if i = 0 then 100000 else 5000, fun i j => decide (i < j)⟩

/-- With stable prices somebody with an income of 100000 dollars, 3000 of them from an RRSP, pays
31115.85 dollars, and with a spouse who earns 5000 dollars 27625.36 dollars. -/
example : ∃ f p, taxCanada (fun _ _ => .ok (1 : ℚ)) = .ok (f, p) ∧
    canadianTax couple f p ⟨0, none, fun _ => some 100000, fun _ => some 0, fun _ => some 0⟩ 2030
      = .ok (311158497 / 10000) ∧
    canadianTax couple f p ⟨0, some 1, fun _ => some 100000, fun _ => some 0, fun _ => some 0⟩ 2030
      = .ok (55250713 / 2000) ∧
    tax2017 .federal (100000 : ℚ) 0 0 3000 0 + tax2017 .bc (100000 : ℚ) 0 0 3000 0
      = 311158497 / 10000 ∧ Index (fun _ _ => .ok (1 : ℚ)) fun _ => 1 := by
  obtain ⟨f, p, h⟩ := C75_can_be_built (K := ℚ) fun _ _ => .ok 1
  have I : Index (fun _ _ => .ok (1 : ℚ)) fun _ => 1 := ⟨fun _ => one_pos, fun _ _ => by norm_num⟩
  have e1 := C75_tax_of_a_single I h [] [] (by simp) (by simp) couple
    ⟨0, none, fun _ => some 100000, fun _ => some 0, fun _ => some 0⟩ 2030 100000 0 0 rfl rfl rfl
    le_rfl rfl
  have e2 := C75_tax_with_a_spouse I h [] [] (by simp) (by simp) couple
    ⟨0, some 1, fun _ => some 100000, fun _ => some 0, fun _ => some 0⟩
    ⟨1, some 0, fun _ => some 5000, fun _ => some 0, fun _ => some 0⟩ 2030 100000 0 0 0 rfl rfl rfl
    le_rfl rfl rfl rfl
  refine ⟨f, p, h, e1.trans (congrArg _ (by decide +kernel)),
    e2.trans (congrArg _ (by decide +kernel)), by decide +kernel, I⟩

end Forecaster.Shipped
