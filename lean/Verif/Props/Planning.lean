import Verif.Props.TaxPeople

/-!
# Property C103: what tax planning relies on

Credits and deductions never cost tax and are never worth more than the rates say; the more one
earns, the greater the part that goes in tax; and evening out incomes, over time or between the
members of a couple, never costs tax. For every table of rising rates, in every year, whatever the
tax object has been asked before.
-/

set_option linter.unusedSectionVars false

namespace Forecaster.Tax

open Forecaster Forecaster.Inflation

variable {K : Type} [Field K] [LinearOrder K] [IsStrictOrderedRing K]

/-- **Specification.** Higher brackets have higher (or the same) rates. -/
def Progressive (B : Dict K K) : Prop := ∀ p ∈ B, ∀ q ∈ B, p.1 < q.1 → p.2 ≤ q.2

/-- **C103** (credits). A greater credit never raises the tax, and lowers it by no more than the
credit rate times the difference. -/
theorem C103_credit {t : Tax K} {y : ℤ} {B : Dict K K} {c c' cr : K} (h : Sane t y B c)
    (hcc : c ≤ c') (hcr : creditRate t y = .ok cr) (x d : K) {v v' : K} {t1 t2 : Tax K}
    (h1 : taxMoney t x y d c = .ok (v, t1)) (h2 : taxMoney t x y d c' = .ok (v', t2)) :
    v' ≤ v ∧ v - v' ≤ cr * (c' - c) := by
  obtain ⟨t', ht⟩ := h.table
  obtain ⟨cr', hcr', h0⟩ := h.creditRate
  rw [hcr] at hcr'
  cases hcr'
  rw [C28_tax_is_bracket_sum' h.reach ht hcr x d c h.rates h.credit h0] at h1
  rw [C28_tax_is_bracket_sum' h.reach ht hcr x d c' h.rates (h.credit.trans hcc) h0] at h2
  cases h1
  cases h2
  generalize bracketTax (ascending B) (x - d) = T
  have hm := mul_le_mul_of_nonneg_right hcc h0
  refine ⟨max_le_max (by linarith) le_rfl, ?_⟩
  have e1 := le_max_left (T - c' * cr) 0
  have e2 := le_max_right (T - c' * cr) 0
  rcases le_total (T - c * cr) 0 with a | a
  · rw [max_eq_right a]
    nlinarith
  · rw [max_eq_left a]
    nlinarith

/-- **C103** (deductions). A greater deduction never raises the tax, and lowers it by no more than
the top rate times the difference. -/
theorem C103_deduction {t : Tax K} {y : ℤ} {B : Dict K K} {c : K} (h : Sane t y B c) {R : K}
    (hR : ∀ kv ∈ B, kv.2 ≤ R) {d d' : K} (hdd : d ≤ d') (x : K) {v v' : K} {t1 t2 : Tax K}
    (h1 : taxMoney t x y d c = .ok (v, t1)) (h2 : taxMoney t x y d' c = .ok (v', t2)) :
    v' ≤ v ∧ v - v' ≤ R * (d' - d) := by
  refine ⟨C28_monotone h le_rfl hdd h2 h1, ?_⟩
  obtain ⟨-, -, cr, -, h4⟩ := h.money
  obtain ⟨t3, e⟩ := h4 (x - (d' - d)) d
  obtain ⟨t4, e'⟩ := h4 x d'
  have hx : x - (d' - d) - d = x - d' := by ring
  rw [h2] at e'
  cases e'
  rw [hx] at e
  have := (C28_lipschitz h hR (show x - (d' - d) ≤ x by linarith) e h1).1
  have hx2 : x - (x - (d' - d)) = d' - d := by ring
  rw [hx2] at this
  exact this

/-- **C103** (average rate). With rising rates and no thresholds below zero, the part of the income
that goes in tax does not fall as the income rises: `v₁ / x₁ ≤ v₂ / x₂` for `0 < x₁ ≤ x₂`. -/
theorem C103_average_rate {t : Tax K} {y : ℤ} {B : Dict K K} {c : K} (h : Sane t y B c)
    (hp : Progressive B) (hB : ∀ b ∈ Dict.keys B, 0 ≤ b) {d x1 x2 v1 v2 : K} {t1 t2 : Tax K}
    (hd : 0 ≤ d) (hx1 : 0 < x1) (hx : x1 ≤ x2)
    (h1 : taxMoney t x1 y d c = .ok (v1, t1)) (h2 : taxMoney t x2 y d c = .ok (v2, t2)) :
    v1 / x1 ≤ v2 / x2 := by
  have hx2 : 0 < x2 := hx1.trans_le hx
  obtain ⟨v0, t0, e0, -, e1⟩ := C28_zero_below_lowest h 0 d
  have hv0 : v0 = 0 := e1 fun b hb => by linarith [hB b hb]
  subst hv0
  have hl : x1 / x2 * x2 + (1 - x1 / x2) * 0 = x1 := by field_simp; ring
  have := C28_convex h hp (l := x1 / x2) (x1 := x2) (x2 := 0) (div_nonneg hx1.le hx2.le)
    ((div_le_one hx2).2 hx) h2 e0 (by rw [hl]; exact h1)
  rw [div_le_div_iff₀ hx1 hx2]
  have e : (x1 / x2 * v2 + (1 - x1 / x2) * 0) * x2 = v2 * x1 := by field_simp; ring
  have := mul_le_mul_of_nonneg_right this hx2.le
  rw [e] at this
  exact this

/-- **C103** (evening out). With rising rates, two more equal incomes with the same total bear no
more tax than two less equal ones. -/
theorem C103_evening_out {t : Tax K} {y : ℤ} {B : Dict K K} {c : K} (h : Sane t y B c)
    (hp : Progressive B) {d a b a' b' va vb va' vb' : K} {t1 t2 t3 t4 : Tax K}
    (hsum : a' + b' = a + b) (h1 : a ≤ a') (h2 : a' ≤ b)
    (ha : taxMoney t a y d c = .ok (va, t1)) (hb : taxMoney t b y d c = .ok (vb, t2))
    (ha' : taxMoney t a' y d c = .ok (va', t3)) (hb' : taxMoney t b' y d c = .ok (vb', t4)) :
    va' + vb' ≤ va + vb := by
  rcases eq_or_lt_of_le (h1.trans h2) with e | hlt
  · obtain rfl : a' = a := le_antisymm (h2.trans e.ge) h1
    obtain rfl : b' = b := by linarith
    rw [ha] at ha'
    rw [hb] at hb'
    cases ha'
    cases hb'
    exact le_rfl
  · have hba : 0 < b - a := by linarith
    have hne : b - a ≠ 0 := hba.ne'
    set l := (b - a') / (b - a) with hl
    have l0 : 0 ≤ l := div_nonneg (by linarith) hba.le
    have l1 : l ≤ 1 := (div_le_one hba).2 (by linarith)
    have hm : l * (b - a) = b - a' := by rw [hl]; field_simp
    have e1 : l * a + (1 - l) * b = a' := by linear_combination -hm
    have e2 : (1 - l) * a + (1 - (1 - l)) * b = b' := by linear_combination hm - hsum
    have c1 := C28_convex h hp l0 l1 ha hb (by rw [e1]; exact ha')
    have c2 := C28_convex h hp (l := 1 - l) (by linarith) (by linarith) ha hb
      (by rw [e2]; exact hb')
    nlinarith

/-- **Specification.** A person without a given spouse or with one, on whom the histories record
the income `x`, own deductions `d` and own credits `c` in the year `y`. -/
structure Has (p : Payer K) (y : ℤ) (x d c : K) : Prop where
  income : p.taxableIncome y = some x
  deduction : p.taxDeduction y = some d
  credit : p.taxCredit y = some c

theorem couple_tax {t : Tax K} (ht : Reachable t) {y : ℤ} {p q : Payer K} (hpq : p.id ≠ q.id)
    {a b d c pd va vb : K} {t1 t2 : Tax K} (hp : Has p y a d c) (hq : Has q y b d c)
    (hpd : personalDeduction t y = .ok pd)
    (ha : taxMoney t a y (pd + 2 * d) (2 * c) = .ok (va, t1))
    (hb : taxMoney t b y (pd + 2 * d) (2 * c) = .ok (vb, t2)) :
    ∃ j, call (base t) (.people [p, q]) y none none = .ok (va + vb, j) := by
  have key : ∀ (r : Payer K) (x v : K) (t1 : Tax K), Has r y x d c →
      taxMoney t x y (pd + 2 * d) (2 * c) = .ok (v, t1) →
      ∃ j, taxPerson (base t) r y (Dict.val [] r.id) (Dict.val [] r.id) = .ok (v, j) := by
    intro r x v t1 hr hv
    have e := C49_person_tax t r y 0 0 x d c pd hr.income hr.deduction hr.credit hpd
    rw [add_zero, add_zero, hv] at e
    have e0 : Dict.val ([] : Dict ℕ K) r.id = 0 := rfl
    rw [e0]
    cases hh : taxPerson (base t) r y 0 0 with
    | error e' => rw [hh] at e; cases e
    | ok w =>
      rw [hh] at e
      cases e
      exact ⟨w.2, rfl⟩
  obtain ⟨j1, k1⟩ := key p a va t1 hp ha
  obtain ⟨j2, k2⟩ := key q b vb t2 hq hb
  have hpure : CreditPure (base t) := base_pure t
  obtain ⟨j, hj⟩ := C31_household_is_sum (base t) ht hpure [p, q] (by simpa using hpq) y [] []
    (fun r => if r.id = p.id then va else vb) (by
      intro r hr
      simp only [List.mem_cons, List.not_mem_nil, or_false] at hr
      rcases hr with rfl | rfl
      · exact ⟨j1, by simpa using k1⟩
      · exact ⟨j2, by simpa [Ne.symm hpq] using k2⟩)
  refine ⟨j, ?_⟩
  have : call (base t) (.people [p, q]) y none none = taxPeople (base t) [p, q] y [] [] := rfl
  rw [this, hj]
  simp [Ne.symm hpq]

/-- **C103** (couples). If two people have the same deductions and credits of their own, and part of
the greater taxable income is moved to the one with the smaller (so that the two become more
equal), their tax together does not rise. -/
theorem C103_couple {t : Tax K} {y : ℤ} {B : Dict K K} {d c pd : K} (h : Sane t y B (2 * c))
    (hprog : Progressive B) (hpd : personalDeduction t y = .ok pd)
    {p q p' q' : Payer K} (hpq : p.id ≠ q.id) (hpq' : p'.id ≠ q'.id) {a b a' b' : K}
    (hp : Has p y a d c) (hq : Has q y b d c) (hp' : Has p' y a' d c) (hq' : Has q' y b' d c)
    (hsum : a' + b' = a + b) (h1 : a ≤ a') (h2 : a' ≤ b) :
    ∃ v v' j j', call (base t) (.people [p, q]) y none none = .ok (v, j) ∧
      call (base t) (.people [p', q']) y none none = .ok (v', j') ∧ v' ≤ v := by
  obtain ⟨-, -, cr, -, h4⟩ := h.money
  obtain ⟨_, ea⟩ := h4 a (pd + 2 * d)
  obtain ⟨_, eb⟩ := h4 b (pd + 2 * d)
  obtain ⟨_, ea'⟩ := h4 a' (pd + 2 * d)
  obtain ⟨_, eb'⟩ := h4 b' (pd + 2 * d)
  obtain ⟨j, hj⟩ := couple_tax h.reach hpq hp hq hpd ea eb
  obtain ⟨j', hj'⟩ := couple_tax h.reach hpq' hp' hq' hpd ea' eb'
  exact ⟨_, _, j, j', hj, hj', C103_evening_out h hprog hsum h1 h2 ea eb ea' eb'⟩

/-! ### Examples -/

theorem sample_progressive : Progressive ([(0, 1 / 10), (1000, 3 / 10), (100, 1 / 5)] : Dict ℚ ℚ) := by
  unfold Progressive
  decide +kernel

example : (∀ b ∈ Dict.keys ([(0, 1 / 10), (1000, 3 / 10), (100, 1 / 5)] : Dict ℚ ℚ), 0 ≤ b) ∧
    (taxMoney sampleTax 500 2000 0 20).map Prod.fst = .ok 80 ∧
    (taxMoney sampleTax 2000 2000 0 20).map Prod.fst = .ok 480 ∧
    (80 : ℚ) / 500 ≤ 480 / 2000 ∧
    (taxMoney sampleTax 500 2000 0 60).map Prod.fst = .ok 60 ∧
    (taxMoney sampleTax 500 2000 100 20).map Prod.fst = .ok 60 := by
  refine ⟨?_, ?_, ?_, ?_, ?_, ?_⟩ <;> decide +kernel

/-- One spouse earns 100 and the other 1900, or both earn 1000. -/
example : ∃ v v' j j',
    call (base sampleTax) (.people [payer 0 (some 1) 100 0 10, payer 1 (some 0) 1900 0 10]) 2000
      none none = .ok (v, j) ∧
    call (base sampleTax) (.people [payer 0 (some 1) 1000 0 10, payer 1 (some 0) 1000 0 10]) 2000
      none none = .ok (v', j') ∧ v' ≤ v :=
  C103_couple (B := [(0, 1 / 10), (1000, 3 / 10), (100, 1 / 5)]) (d := 0) (c := 10) (pd := 50)
    (by norm_num; exact sample_sane) sample_progressive (by decide +kernel) (by decide) (by decide)
    (a := 100) (b := 1900) (a' := 1000) (b' := 1000)
    ⟨rfl, rfl, rfl⟩ ⟨rfl, rfl, rfl⟩ ⟨rfl, rfl, rfl⟩ ⟨rfl, rfl, rfl⟩ (by norm_num) (by norm_num)
    (by norm_num)

/-- The difference is real: 435 against 340. -/
example : (call (base sampleTax) (.people [payer 0 (some 1) 100 0 10, payer 1 (some 0) 1900 0 10])
      2000 none none).map Prod.fst = .ok 435 ∧
    (call (base sampleTax) (.people [payer 0 (some 1) 1000 0 10, payer 1 (some 0) 1000 0 10])
      2000 none none).map Prod.fst = .ok 340 := by
  constructor <;> decide +kernel

end Forecaster.Tax
