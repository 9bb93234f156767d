import Verif.Props.TaxHistory
import Mathlib.Data.List.Forall2
import Mathlib.Data.List.Dedup

/-!
# Taxing people and several jurisdictions (C31 - C33, C49, C50)
-/

set_option linter.unusedSectionVars false

namespace Forecaster.Tax

open Forecaster Forecaster.Inflation

variable {K : Type} [Field K] [LinearOrder K] [IsStrictOrderedRing K]

/-! ## C31 -/

/-- The `credit` method does not look at the cached tables (true of `Tax` and of
`TaxCanadaJurisdiction`, see `base_pure` and `canada_pure`). -/
def CreditPure (j : Jur K) : Prop :=
  ∀ t t' : Tax K, t.personal = t'.personal → t.adjust = t'.adjust → j.credit t = j.credit t'

theorem base_pure (t : Tax K) : CreditPure (base t) := fun _ _ _ _ => rfl

theorem deductionFor_congr {t t' : Tax K} (h1 : t.personal = t'.personal)
    (h2 : t.adjust = t'.adjust) (p : Payer K) (y : ℤ) :
    deductionFor t p y = deductionFor t' p y := by
  unfold deductionFor personalDeduction; rw [h1, h2]

theorem canada_pure (E : CanEnv K) (t : Tax K) : CreditPure (canadaJur E t) := by
  intro t t' h1 h2
  funext p y
  simp only [canadaJur, canadaCredit, spousalCredit, h2, deductionFor_congr h1 h2]

/-- `tax_person` succeeds only with a table for the year; the new state is that after
`tax_brackets(year)`; and asking the new state gives the same answer. -/
theorem taxPerson_warm {j : Jur K} (hj : Inv j.tax) (hp : CreditPure j) {p : Payer K} {y : ℤ}
    {d c v : K} {j' : Jur K} (h : taxPerson j p y d c = .ok (v, j')) :
    ∃ B t', taxBrackets j.tax y = .ok (B, t') ∧ j' = ⟨t', j.credit⟩ ∧
      taxPerson j' p y d c = .ok (v, j') := by
  unfold taxPerson at h
  cases e1 : hist p.taxableIncome y with
  | error e => rw [e1] at h; cases h
  | ok income =>
  rw [e1, ok_bind] at h
  cases e2 : hist p.taxDeduction y with
  | error e => rw [e2] at h; cases h
  | ok d1 =>
  rw [e2, ok_bind] at h
  cases e3 : deductionFor j.tax p y with
  | error e => rw [e3] at h; cases h
  | ok d2 =>
  rw [e3, ok_bind] at h
  cases e4 : hist p.taxCredit y with
  | error e => rw [e4] at h; cases h
  | ok c1 =>
  rw [e4, ok_bind] at h
  cases e5 : j.credit j.tax p y with
  | error e => rw [e5] at h; cases h
  | ok c2 =>
  rw [e5, ok_bind] at h
  cases hB : taxBrackets j.tax y with
  | error e => simp only [taxMoney, hB, error_bind] at h; cases h
  | ok r =>
  obtain ⟨B, t'⟩ := r
  obtain ⟨i1, -, i3, -, -, -, i7, i8, i9⟩ := taxBrackets_inv hj hB
  obtain ⟨b, acc, rate, hb, hr, a1, a2, e6⟩ :=
    taxMoney_eq hj hB income (d1 + d2 + d) (c1 + c2 + c)
  cases hcr : creditRate j.tax y with
  | error e => rw [e6, hcr] at h; cases h
  | ok cr =>
  rw [e6, hcr] at h
  simp only [Except.bind, ok_bind, Except.ok.injEq, Prod.mk.injEq] at h
  obtain ⟨rfl, rfl⟩ := h
  refine ⟨B, t', rfl, rfl, ?_⟩
  have e7 : taxMoney t' income y (d1 + d2 + d) (c1 + c2 + c)
      = .ok (max (acc + (income - (d1 + d2 + d) - b) * rate - (c1 + c2 + c) * cr) 0, t') := by
    obtain ⟨b', acc', rate', hb', hr', a1', a2', e7⟩ :=
      taxMoney_eq i1 i3 income (d1 + d2 + d) (c1 + c2 + c)
    rw [hb] at hb'; cases hb'
    rw [hr] at hr'; cases hr'
    have hc : creditRate t' y = .ok cr := by rw [← hcr]; unfold creditRate; rw [i8]
    have hacc : acc' = acc := by
      rcases le_total b (income - (d1 + d2 + d)) with h | h
      · have := (a1 h).trans (a1' h).symm; linarith
      · rw [(a2 h).1, (a2' h).1]
    rw [e7, hc, hacc]; rfl
  have e8 : deductionFor t' p y = .ok d2 := by rw [← e3]; exact deductionFor_congr i7 i9 p y
  have e9 : j.credit t' p y = .ok c2 := by rw [← e5, hp t' j.tax i7 i9]
  unfold taxPerson
  simp only [e1, e2, e8, e4, e9, ok_bind, e7]

theorem sum_remove {ps : List (Payer K)} (hnd : (ps.map Payer.id).Nodup) {q : Payer K}
    (hq : q ∈ ps) (f : Payer K → K) :
    (ps.map f).sum = f q + ((ps.filter fun r => r.id != q.id).map f).sum := by
  induction ps with
  | nil => simp at hq
  | cons p ps ih =>
    rw [List.map_cons, List.nodup_cons] at hnd
    rcases List.mem_cons.1 hq with h | h
    · subst h
      have : ps.filter (fun r => r.id != q.id) = ps := by
        rw [List.filter_eq_self]
        intro r hr
        have : r.id ≠ q.id := fun e => hnd.1 (e ▸ List.mem_map_of_mem hr)
        simpa using this
      simp [this]
    · have hne : p.id ≠ q.id := fun e => hnd.1 (e ▸ List.mem_map_of_mem h)
      simp only [List.map_cons, List.sum_cons]
      rw [ih hnd.2 h, List.filter_cons_of_pos (by simpa using hne)]
      simp only [List.map_cons, List.sum_cons]; ring

theorem filter_ids {ps : List (Payer K)} (hnd : (ps.map Payer.id).Nodup) (f : Payer K → Bool) :
    ((ps.filter f).map Payer.id).Nodup :=
  List.Nodup.sublist (List.Sublist.map _ List.filter_sublist) hnd

theorem taxPeopleAux_sum {y : ℤ} {ded cred : Dict ℕ K} (v : Payer K → K) (jw : Jur K)
    (fuel : ℕ) : ∀ (j : Jur K) (ps : List (Payer K)), ps.length ≤ fuel →
      (ps.map Payer.id).Nodup →
      (∀ p ∈ ps, taxOne j p y ded cred = .ok (v p, jw)) →
      (∀ p ∈ ps, taxOne jw p y ded cred = .ok (v p, jw)) →
      ∃ j', taxPeopleAux fuel j ps y ded cred = .ok ((ps.map v).sum, j') := by
  induction fuel with
  | zero =>
    intro j ps hlen _ _ _
    have : ps = [] := List.length_eq_zero_iff.1 (Nat.le_zero.1 hlen)
    subst this
    exact ⟨j, rfl⟩
  | succ fuel ih =>
    intro j ps hlen hnd hv hw
    cases ps with
    | nil => exact ⟨j, rfl⟩
    | cons p ps =>
      have hlt : ∀ f : Payer K → Bool, f p = false →
          ((p :: ps).filter f).length ≤ fuel := by
        intro f hf
        rw [List.filter_cons_of_neg (by simp [hf])]
        have := List.length_filter_le f ps
        simp only [List.length_cons] at hlen
        omega
      rw [taxPeopleAux]
      cases hs : p.spouse.bind fun s => (p :: ps).find? fun q => q.id == s with
      | none =>
        simp only [hv p (by simp), ok_bind]
        obtain ⟨j', e⟩ := ih jw ((p :: ps).filter fun r => r.id != p.id) (hlt _ (by simp))
          (filter_ids hnd _) (fun q hq => hw q (List.mem_of_mem_filter hq))
          (fun q hq => hw q (List.mem_of_mem_filter hq))
        refine ⟨j', ?_⟩
        rw [e, ok_bind, sum_remove hnd (q := p) (by simp) v]
      | some q =>
        obtain ⟨s, -, hfind⟩ := Option.bind_eq_some_iff.1 hs
        have hq : q ∈ p :: ps := List.mem_of_find?_eq_some hfind
        obtain ⟨j', e⟩ := ih jw ((p :: ps).filter fun r => r.id != p.id && r.id != q.id)
          (hlt _ (by simp)) (filter_ids hnd _) (fun q hq => hw q (List.mem_of_mem_filter hq))
          (fun q hq => hw q (List.mem_of_mem_filter hq))
        refine ⟨j', ?_⟩
        by_cases hqp : q.id = p.id
        · have e1 : taxSpouses j [p] y ded cred = .ok (v p, jw) := by
            simp [taxSpouses, hv p (by simp)]
          simp only [hqp, if_true, e1, ok_bind, Bool.and_self]
          simp only [hqp, Bool.and_self] at e
          rw [e, ok_bind, sum_remove hnd (q := p) (by simp) v]
        · have e1 : taxSpouses j [p, q] y ded cred = .ok (v p + v q, jw) := by
            simp [taxSpouses, hv p (by simp), hw q hq]
          simp only [hqp, if_false, e1, ok_bind]
          have hq' : q ∈ (p :: ps).filter fun r => r.id != p.id := by
            rw [List.mem_filter]; exact ⟨hq, by simpa using hqp⟩
          have e2 : (p :: ps).filter (fun r => r.id != p.id && r.id != q.id)
              = ((p :: ps).filter fun r => r.id != p.id).filter fun r => r.id != q.id := by
            rw [List.filter_filter]; congr 1; funext r; rw [Bool.and_comm]
          rw [e, ok_bind, sum_remove hnd (q := p) (by simp) v,
            sum_remove (filter_ids hnd _) hq' v, ← e2, add_assoc]

/-- **C31.** The tax of a household is the sum of the taxes of its members, each taxed with the
deduction and credit given for them, whatever the order in which the people are taken, whoever is
married to whom, and whatever has been cached: nobody is taxed twice or forgotten. -/
theorem C31_household_is_sum (j : Jur K) (hj : Reachable j.tax) (hpure : CreditPure j)
    (people : List (Payer K)) (hnd : (people.map Payer.id).Nodup) (y : ℤ) (ded cred : Dict ℕ K)
    (v : Payer K → K)
    (hv : ∀ p ∈ people, ∃ j', taxPerson j p y (Dict.val ded p.id) (Dict.val cred p.id)
      = .ok (v p, j')) :
    ∃ j', taxPeople j people y ded cred = .ok ((people.map v).sum, j') := by
  unfold taxPeople
  cases people with
  | nil => exact ⟨j, rfl⟩
  | cons p ps =>
    obtain ⟨j1, h1⟩ := hv p (by simp)
    obtain ⟨B, t', hB, rfl, h2⟩ := taxPerson_warm hj.inv hpure h1
    have hall : ∀ q ∈ p :: ps, taxOne j q y ded cred = .ok (v q, ⟨t', j.credit⟩) ∧
        taxOne ⟨t', j.credit⟩ q y ded cred = .ok (v q, ⟨t', j.credit⟩) := by
      intro q hq
      obtain ⟨j2, g1⟩ := hv q hq
      obtain ⟨B', t2, hB', rfl, g2⟩ := taxPerson_warm hj.inv hpure g1
      rw [hB] at hB'; cases hB'
      exact ⟨g1, g2⟩
    exact taxPeopleAux_sum v ⟨t', j.credit⟩ _ j (p :: ps) le_rfl hnd
      (fun q hq => (hall q hq).1) fun q hq => (hall q hq).2

/-- **C31.** Calling the tax object with people and dicts of deductions and credits (or without them):
the sum of their taxes, each with the entry under their own name as deduction or credit, 0 where there
is none. -/
theorem C31_calling (j : Jur K) (hj : Reachable j.tax) (hpure : CreditPure j)
    (people : List (Payer K)) (hnd : (people.map Payer.id).Nodup) (y : ℤ)
    (ded cred : Option (Dict ℕ K)) (v : Payer K → K)
    (hv : ∀ p ∈ people, ∃ j', taxPerson j p y (Dict.val (ded.getD []) p.id)
      (Dict.val (cred.getD []) p.id) = .ok (v p, j')) :
    ∃ j', call j (.people people) y (ded.map .perPerson) (cred.map .perPerson)
      = .ok ((people.map v).sum, j') := by
  cases people with
  | nil => exact ⟨j, rfl⟩
  | cons p ps =>
    have h := C31_household_is_sum j hj hpure (p :: ps) hnd y _ _ v hv
    cases ded <;> cases cred <;> exact h

/-- **C31.** The order in which the set of people is iterated does not matter. -/
theorem C31_order_irrelevant (j : Jur K) (hj : Reachable j.tax) (hpure : CreditPure j)
    (people people' : List (Payer K)) (hnd : (people.map Payer.id).Nodup)
    (hperm : people.Perm people') (y : ℤ) (ded cred : Dict ℕ K)
    (hv : ∀ p ∈ people, ∃ r, taxPerson j p y (Dict.val ded p.id) (Dict.val cred p.id) = .ok r) :
    ∃ x j1 j2, taxPeople j people y ded cred = .ok (x, j1) ∧
      taxPeople j people' y ded cred = .ok (x, j2) := by
  let v : Payer K → K := fun p =>
    match taxPerson j p y (Dict.val ded p.id) (Dict.val cred p.id) with
    | .ok r => r.1
    | .error _ => 0
  have hv' : ∀ p ∈ people, ∃ j', taxPerson j p y (Dict.val ded p.id) (Dict.val cred p.id)
      = .ok (v p, j') := by
    intro p hp
    obtain ⟨r, hr⟩ := hv p hp
    exact ⟨r.2, by simp only [v, hr]⟩
  obtain ⟨j1, h1⟩ := C31_household_is_sum j hj hpure people hnd y ded cred v hv'
  obtain ⟨j2, h2⟩ := C31_household_is_sum j hj hpure people'
    ((hperm.map _).nodup_iff.1 hnd) y ded cred v fun p hp => hv' p (hperm.mem_iff.2 hp)
  refine ⟨_, j1, j2, h1, ?_⟩
  rw [h2, (hperm.map v).sum_eq]

/-- A person with constant histories. -/
def payer (id : ℕ) (spouse : Option ℕ) (income ded cred : ℚ) : Payer ℚ :=
  ⟨id, spouse, fun _ => some income, fun _ => some ded, fun _ => some cred⟩

example : (taxPeople (base sampleTax) [payer 0 (some 1) 500 0 0, payer 2 none 250 0 0,
      payer 1 (some 0) 1150 0 0] 2000 [(1, 50)] []).map Prod.fst
    = .ok (80 + 30 + 205) ∧
    (taxPerson (base sampleTax) (payer 1 (some 0) 1150 0 0) 2000 50 0).map Prod.fst = .ok 205 := by
  constructor <;> decide +kernel

/-- A deduction of 50 for one, a credit of 40 (at the rate of 1/2) for another. -/
example : (call (base sampleTax) (.people [payer 0 (some 1) 500 0 0, payer 2 none 250 0 0,
      payer 1 (some 0) 1150 0 0]) 2000 (some (.perPerson [(1, 50)]))
      (some (.perPerson [(2, 40)]))).map Prod.fst = .ok (80 + 10 + 205) := by
  decide +kernel

/-! ## C49: own deductions and credits -/

/-- **C49.** A person is taxed on the year's taxable income less the personal deduction, the given
deduction and *twice* the person's own deductions, with the given credit and twice the person's own
credits. -/
theorem C49_person_tax (t : Tax K) (p : Payer K) (y : ℤ) (d c income own_d own_c pd : K)
    (h1 : p.taxableIncome y = some income) (h2 : p.taxDeduction y = some own_d)
    (h3 : p.taxCredit y = some own_c) (h4 : personalDeduction t y = .ok pd) :
    (taxPerson (base t) p y d c).map Prod.fst
      = (taxMoney t income y (pd + 2 * own_d + d) (2 * own_c + c)).map Prod.fst := by
  have e : taxPerson (base t) p y d c = (do
      let r ← taxMoney t income y (pd + 2 * own_d + d) (2 * own_c + c)
      .ok (r.1, { base t with tax := r.2 })) := by
    unfold taxPerson base deductionFor creditFor hist
    simp only [h1, h2, h3, h4, ok_bind]
    have e1 : own_d + (pd + own_d) + d = pd + 2 * own_d + d := by ring
    have e2 : own_c + own_c + c = 2 * own_c + c := by ring
    rw [e1, e2]
  rw [e]
  cases taxMoney t income y (pd + 2 * own_d + d) (2 * own_c + c) <;> rfl

/-- **C49.** Each deduction and credit counts once for people without deductions and credits of
their own. -/
theorem C49_no_own_deductions (t : Tax K) (p : Payer K) (y : ℤ) (d c income pd : K)
    (h1 : p.taxableIncome y = some income) (h2 : p.taxDeduction y = some 0)
    (h3 : p.taxCredit y = some 0) (h4 : personalDeduction t y = .ok pd) :
    (taxPerson (base t) p y d c).map Prod.fst
      = (taxMoney t income y (pd + d) c).map Prod.fst := by
  rw [C49_person_tax t p y d c income 0 0 pd h1 h2 h3 h4]
  simp

example : (payer 0 none 950 100 20).taxDeduction 2000 = some 100 ∧
    (payer 0 none 950 100 20).taxCredit 2000 = some 20 ∧
    (taxPerson (base sampleTax) (payer 0 none 950 100 20) 2000 30 5).map Prod.fst
      = (taxMoney sampleTax 950 2000 (50 + 2 * 100 + 30) (2 * 20 + 5)).map Prod.fst := by
  refine ⟨rfl, rfl, ?_⟩; decide +kernel

/-- **C49.** Calling the tax object: with a person, the amounts given with the call, 0 where omitted,
are that person's further deduction and credit; with an amount of money, they are the deduction and
credit and nothing is added. -/
theorem C49_calling (t : Tax K) (p : Payer K) (y : ℤ) (d c income own_d own_c pd x : K)
    (h1 : p.taxableIncome y = some income) (h2 : p.taxDeduction y = some own_d)
    (h3 : p.taxCredit y = some own_c) (h4 : personalDeduction t y = .ok pd) :
    (call (base t) (.person p) y (some (.scalar d)) (some (.scalar c))).map Prod.fst
      = (taxMoney t income y (pd + 2 * own_d + d) (2 * own_c + c)).map Prod.fst ∧
    (call (base t) (.person p) y none none).map Prod.fst
      = (taxMoney t income y (pd + 2 * own_d) (2 * own_c)).map Prod.fst ∧
    (call (base t) (.money x) y (some (.scalar d)) (some (.scalar c))).map Prod.fst
      = (taxMoney t x y d c).map Prod.fst ∧
    (call (base t) (.money x) y none none).map Prod.fst
      = (taxMoney t x y 0 0).map Prod.fst := by
  have m : ∀ d c : K, (do
      let r ← taxMoney t x y d c
      Except.ok (r.1, { base t with tax := r.2 }) : Except PyErr (K × Jur K)).map Prod.fst
        = (taxMoney t x y d c).map Prod.fst := by
    intro d c
    cases taxMoney t x y d c <;> rfl
  refine ⟨?_, ?_, m d c, m 0 0⟩
  · exact C49_person_tax t p y d c income own_d own_c pd h1 h2 h3 h4
  · have := C49_person_tax t p y 0 0 income own_d own_c pd h1 h2 h3 h4
    simp only [add_zero] at this
    exact this

example : (call (base sampleTax) (.person (payer 0 none 950 100 20)) 2000 (some (.scalar 30))
      (some (.scalar 5))).map Prod.fst
    = (taxMoney sampleTax 950 2000 (50 + 2 * 100 + 30) (2 * 20 + 5)).map Prod.fst := by
  decide +kernel

/-- **C49, refuted**: that each of a person's own deductions counts once. A deduction of 100 of one's
own lowers the taxable income by 200. -/
theorem C49_own_deductions_count_twice :
    (taxPerson (base sampleTax) (payer 0 none 950 100 0) 2000 0 0).map Prod.fst
      = (taxMoney sampleTax 950 2000 (50 + 2 * 100) 0).map Prod.fst ∧
    (taxPerson (base sampleTax) (payer 0 none 950 100 0) 2000 0 0).map Prod.fst
      ≠ (taxMoney sampleTax 950 2000 (50 + 100) 0).map Prod.fst ∧
    personalDeduction sampleTax 2000 = .ok 50 := by
  refine ⟨?_, ?_, ?_⟩ <;> decide +kernel

/-! ## C32 -/

theorem mapM_ok {α β : Type} (f : α → Except PyErr β) (l : List α) (rs : List β) :
    l.mapM f = .ok rs ↔ List.Forall₂ (fun a r => f a = .ok r) l rs := by
  induction l generalizing rs with
  | nil =>
    simp only [List.mapM_nil, except_pure, Except.ok.injEq, List.forall₂_nil_left_iff]
    exact eq_comm
  | cons a l ih =>
    rw [List.mapM_cons, List.forall₂_cons_left_iff]
    cases hf : f a with
    | error e => simp
    | ok b =>
      rw [ok_bind]
      cases hl : l.mapM f with
      | error e =>
        simp only [error_bind, reduceCtorEq, false_iff, not_exists, not_and]
        rintro b' bs h1 h2
        rw [← ih, hl] at h2; cases h2
      | ok bs =>
        simp only [ok_bind, except_pure, Except.ok.injEq]
        constructor
        · rintro rfl
          exact ⟨b, bs, rfl, (ih bs).1 hl, rfl⟩
        · rintro ⟨b', bs', h1, h2, rfl⟩
          cases h1
          rw [← ih, hl] at h2; cases h2; rfl

/-- **C32.** Taxing with several jurisdictions succeeds exactly when each jurisdiction, called
with its own deduction and credit, does; and then gives exactly the sum of their taxes. -/
theorem C32_multi_is_sum (js : List (Jur K)) (income : Income K) (y : ℤ)
    (ded cred : Dict ℕ (Amount K)) (x : K) (js' : List (Jur K)) :
    multiCall js income y ded cred = .ok (x, js') ↔
      ∃ vs : List K, vs.length = js.length ∧ js'.length = js.length ∧ x = vs.sum ∧
        ∀ i j, js[i]? = some j → ∃ v j', vs[i]? = some v ∧ js'[i]? = some j' ∧
          call j income y (Dict.get? ded i) (Dict.get? cred i) = .ok (v, j') := by
  have e : multiCall js income y ded cred = .ok (x, js') ↔ ∃ rs : List (K × Jur K),
      List.Forall₂ (fun ji r =>
        call ji.1 income y (Dict.get? ded ji.2) (Dict.get? cred ji.2) = .ok r) js.zipIdx rs ∧
      x = (rs.map Prod.fst).sum ∧ js' = rs.map Prod.snd := by
    unfold multiCall
    cases hm : js.zipIdx.mapM fun ji =>
        call ji.1 income y (Dict.get? ded ji.2) (Dict.get? cred ji.2) with
    | error e =>
      simp only [error_bind, reduceCtorEq, false_iff, not_exists, not_and]
      intro rs h
      rw [← mapM_ok (fun ji : Jur K × ℕ =>
        call ji.1 income y (Dict.get? ded ji.2) (Dict.get? cred ji.2)), hm] at h
      cases h
    | ok rs =>
      simp only [ok_bind, Except.ok.injEq, Prod.mk.injEq]
      constructor
      · rintro ⟨rfl, rfl⟩
        exact ⟨rs, (mapM_ok _ _ _).1 hm, rfl, rfl⟩
      · rintro ⟨rs', h, rfl, rfl⟩
        rw [← mapM_ok (fun ji : Jur K × ℕ =>
          call ji.1 income y (Dict.get? ded ji.2) (Dict.get? cred ji.2)), hm] at h
        cases h; exact ⟨rfl, rfl⟩
  rw [e]
  constructor
  · rintro ⟨rs, h, rfl, rfl⟩
    have hlen := h.length_eq
    rw [List.length_zipIdx] at hlen
    refine ⟨rs.map Prod.fst, by simp [hlen], by simp [hlen], rfl, ?_⟩
    intro i j hi
    have hi' : i < rs.length := by
      rw [← hlen]; exact (List.getElem?_eq_some_iff.1 hi).1
    have hget := List.forall₂_iff_get.1 h
    have := hget.2 i (by rw [List.length_zipIdx, hlen]; exact hi') hi'
    simp only [List.get_eq_getElem, List.getElem_zipIdx, zero_add] at this
    obtain ⟨hlt, rfl⟩ := List.getElem?_eq_some_iff.1 hi
    refine ⟨rs[i].1, rs[i].2, by simp [hi'], by simp [hi'], this⟩
  · rintro ⟨vs, h1, h2, rfl, h3⟩
    refine ⟨vs.zip js', ?_, ?_, ?_⟩
    · rw [List.forall₂_iff_get]
      refine ⟨by simp [h1, h2], ?_⟩
      intro i hi hi'
      simp only [List.get_eq_getElem, List.getElem_zipIdx, zero_add, List.getElem_zip]
      rw [List.length_zipIdx] at hi
      obtain ⟨v, j', e1, e2, e3⟩ := h3 i js[i] (by simp [hi])
      obtain ⟨a1, rfl⟩ := List.getElem?_eq_some_iff.1 e1
      obtain ⟨a2, rfl⟩ := List.getElem?_eq_some_iff.1 e2
      exact e3
    · rw [List.map_fst_zip (by omega)]
    · rw [List.map_snd_zip (by omega)]

example : (multiCall [base sampleTax, base sampleTax] (.money 500) 2000 [(1, .scalar 100)] []).map
    Prod.fst = .ok (90 + 70) := by decide +kernel

/-- **C32.** `marginal_rate` of several jurisdictions is the rate at which their taxes together
rise: for every income `x'` down to `marginal_bracket`, or up to the next threshold of any
jurisdiction, the total tax differs by exactly `marginal_rate * (x' - x)`. -/
theorem C32_marginal_rate (js : List (Tax K)) (y : ℤ) (B : ℕ → Dict K K)
    (hs : ∀ i t, js[i]? = some t → Sane t y (B i) 0) {x x' b r : K} {u1 u2 : List (Tax K)}
    (h1 : multiMarginalBracket js x y = .ok (b, u1)) (h2 : multiMarginalRate js x y = .ok (r, u2))
    (hbx : b < x) (hx' : b ≤ x')
    (hno : ∀ i, ∀ kv ∈ B i, ¬ (x ≤ kv.1 ∧ kv.1 < x')) :
    ∃ vs vs' : List K, vs.length = js.length ∧ vs'.length = js.length ∧
      (∀ (i : ℕ) (t : Tax K), js[i]? = some t → ∃ v v' t1 t2, vs[i]? = some v ∧ vs'[i]? = some v' ∧
        taxMoney t x y 0 0 = .ok (v, t1) ∧ taxMoney t x' y 0 0 = .ok (v', t2)) ∧
      vs'.sum - vs.sum = r * (x' - x) := by
  -- the individual results
  unfold multiMarginalBracket at h1
  unfold multiMarginalRate at h2
  cases hm1 : js.mapM fun t => marginalBracket t x y with
  | error e => rw [hm1] at h1; cases h1
  | ok bs =>
  cases hm2 : js.mapM fun t => marginalRate t x y with
  | error e => rw [hm2] at h2; cases h2
  | ok rs =>
  rw [hm1, ok_bind] at h1
  rw [hm2, ok_bind] at h2
  simp only [Except.ok.injEq, Prod.mk.injEq] at h2
  obtain ⟨rfl, -⟩ := h2
  have hmax : ∀ p ∈ bs, p.1 ≤ b := by
    cases hmx : (bs.map Prod.fst).max? with
    | none => rw [hmx] at h1; cases h1
    | some m =>
      rw [hmx] at h1; cases h1
      intro p hp
      exact (max?_mem hmx).2 _ (List.mem_map_of_mem hp)
  clear h1
  rw [mapM_ok] at hm1 hm2
  clear u1 u2
  induction js generalizing B bs rs with
  | nil =>
    cases hm2
    exact ⟨[], [], rfl, rfl, by simp, by simp⟩
  | cons t js ih =>
    rw [List.forall₂_cons_left_iff] at hm1 hm2
    obtain ⟨b0, bs', e1, hm1', rfl⟩ := hm1
    obtain ⟨r0, rs', e2, hm2', rfl⟩ := hm2
    obtain ⟨vs, vs', l1, l2, l3, l4⟩ := ih (fun i => B (i + 1))
      (fun i t h => hs (i + 1) t (by simpa using h)) (fun i kv hkv => hno (i + 1) kv hkv) bs' hm1'
      rs' hm2' fun p hp => hmax p (by simp [hp])
    have hsane := hs 0 t (by simp)
    obtain ⟨hw, hne, cr, hcr, hm⟩ := hsane.money
    obtain ⟨v0, t1, g1⟩ : ∃ v t1, taxMoney t x y 0 0 = .ok (v, t1) := ⟨_, hm x 0⟩
    obtain ⟨v0', t2, g2⟩ : ∃ v t1, taxMoney t x' y 0 0 = .ok (v, t1) := ⟨_, hm x' 0⟩
    have hle := hmax b0 (by simp)
    have hd := C29_marginal_rate hsane (b := b0.1) (r := r0.1) (t1 := b0.2) (t2 := r0.2) e1 e2 g1 g2
      (lt_of_le_of_lt hle hbx) (hle.trans hx') (hno 0)
    refine ⟨v0 :: vs, v0' :: vs', by simp [l1], by simp [l2], ?_, ?_⟩
    · intro i t' hi
      cases i with
      | zero =>
        simp only [List.getElem?_cons_zero, Option.some.injEq] at hi
        subst hi
        exact ⟨_, _, t1, t2, rfl, rfl, g1, g2⟩
      | succ i => exact l3 i t' (by simpa using hi)
    · simp only [List.sum_cons, List.map_cons]
      linear_combination hd + l4

example : (multiMarginalBracket [sampleTax, sampleTax] 500 2000).map Prod.fst = .ok 100 ∧
    (multiMarginalRate [sampleTax, sampleTax] 500 2000).map Prod.fst = .ok (2 / 5) := by
  constructor <;> decide +kernel

theorem forall₂_mem {α β : Type} {R : α → β → Prop} {l : List α} {m : List β}
    (h : List.Forall₂ R l m) : (∀ b ∈ m, ∃ a ∈ l, R a b) ∧ ∀ a ∈ l, ∃ b ∈ m, R a b := by
  induction h with
  | nil => simp
  | cons hab _ ih =>
    refine ⟨fun b hb => ?_, fun a ha => ?_⟩
    · rcases List.mem_cons.1 hb with rfl | hb
      · exact ⟨_, List.mem_cons_self, hab⟩
      · obtain ⟨a, ha, h⟩ := ih.1 b hb
        exact ⟨a, List.mem_cons_of_mem _ ha, h⟩
    · rcases List.mem_cons.1 ha with rfl | ha
      · exact ⟨_, List.mem_cons_self, hab⟩
      · obtain ⟨b, hb, h⟩ := ih.2 a ha
        exact ⟨b, List.mem_cons_of_mem _ hb, h⟩

/-- **C32 fails for the combined brackets**: `tax_brackets(year)` of several jurisdictions
reports a zero rate for every threshold, whatever the jurisdictions' rates. The thresholds are those of
all jurisdictions, each once and in ascending order. -/
theorem C32_combined_brackets_are_zero (js js' : List (Tax K)) (y : ℤ) (C : Dict K K)
    (h : multiTaxBrackets js y = .ok (C, js')) : (∀ kv ∈ C, kv.2 = 0) ∧
    (Dict.keys C).Pairwise (· < ·) ∧ (∀ k, k ∈ Dict.keys C ↔
      ∃ t ∈ js, ∃ B t', taxBrackets t y = .ok (B, t') ∧ k ∈ Dict.keys B) := by
  unfold multiTaxBrackets at h
  cases hm : js.mapM fun t => taxBrackets t y with
  | error e => rw [hm] at h; cases h
  | ok rs =>
    rw [hm, ok_bind] at h
    split at h
    · cases h
    · simp only [Except.ok.injEq, Prod.mk.injEq] at h
      obtain ⟨rfl, -⟩ := h
      have hk : ∀ l : List K, Dict.keys (l.map fun k => (k, (([] : List (Dict K K)).map fun B =>
          Dict.val B k).sum)) = l := by
        intro l; simp [Dict.keys, List.map_map, Function.comp_def]
      refine ⟨fun kv hkv => ?_, ?_, fun k => ?_⟩
      · obtain ⟨k, -, rfl⟩ := List.mem_map.1 hkv
        simp
      · rw [hk]
        have h1 := List.pairwise_insertionSort (· ≤ ·) (rs.flatMap fun r => Dict.keys r.1).dedup
        have h2 : ((rs.flatMap fun r => Dict.keys r.1).dedup.insertionSort (· ≤ ·)).Nodup :=
          (List.perm_insertionSort _ _).nodup_iff.2 (List.nodup_dedup _)
        exact (h1.and h2).imp fun h => lt_of_le_of_ne h.1 h.2
      · rw [hk, (List.perm_insertionSort _ _).mem_iff, List.mem_dedup, List.mem_flatMap]
        have hf := (mapM_ok _ _ _).1 hm
        constructor
        · rintro ⟨r, hr, hkr⟩
          obtain ⟨t, ht, htr⟩ := (forall₂_mem hf).1 r hr
          exact ⟨t, ht, r.1, r.2, htr, hkr⟩
        · rintro ⟨t, ht, B, t', hB, hkB⟩
          obtain ⟨r, hr, htr⟩ := (forall₂_mem hf).2 t ht
          rw [hB] at htr; cases htr
          exact ⟨_, hr, hkB⟩

example : (multiTaxBrackets [sampleTax, sampleTax] 2000).map Prod.fst
    = .ok [(0, 0), (100, 0), (1000, 0)] := by decide +kernel

/-- **C32** (`tax_money`). With a deduction and a credit for every jurisdiction, the tax on a sum
of money is the sum of the jurisdictions' taxes on it, each with its own deduction and credit;
if one of them fails, so does the sum. -/
theorem C32_money_is_sum (js : List (Tax K)) (income : K) (y : ℤ) (ded cred : Dict ℕ K)
    (x : K) (js' : List (Tax K)) :
    multiTaxMoney js income y ded cred = .ok (x, js') ↔
      ∃ vs : List K, vs.length = js.length ∧ js'.length = js.length ∧ x = vs.sum ∧
        ∀ i t, js[i]? = some t → ∃ v t' d c, vs[i]? = some v ∧ js'[i]? = some t' ∧
          Dict.get? ded i = some d ∧ Dict.get? cred i = some c ∧
          taxMoney t income y d c = .ok (v, t') := by
  have key : ∀ (t : Tax K) (i : ℕ) (r : K × Tax K),
      (match Dict.get? ded i, Dict.get? cred i with
        | some d, some c => taxMoney t income y d c
        | _, _ => .error .typeError) = .ok r ↔
      ∃ d c, Dict.get? ded i = some d ∧ Dict.get? cred i = some c ∧
        taxMoney t income y d c = .ok r := by
    intro t i r
    cases Dict.get? ded i <;> cases Dict.get? cred i <;> simp
  have e : multiTaxMoney js income y ded cred = .ok (x, js') ↔ ∃ rs : List (K × Tax K),
      List.Forall₂ (fun ji r => ∃ d c, Dict.get? ded ji.2 = some d ∧
        Dict.get? cred ji.2 = some c ∧ taxMoney ji.1 income y d c = .ok r) js.zipIdx rs ∧
      x = (rs.map Prod.fst).sum ∧ js' = rs.map Prod.snd := by
    unfold multiTaxMoney
    rw [bind_ok_iff]
    simp only [mapM_ok, Except.ok.injEq, Prod.mk.injEq]
    constructor
    · rintro ⟨rs, h, rfl, rfl⟩
      exact ⟨rs, h.imp fun _ _ hr => (key _ _ _).1 hr, rfl, rfl⟩
    · rintro ⟨rs, h, rfl, rfl⟩
      exact ⟨rs, h.imp fun _ _ hr => (key _ _ _).2 hr, rfl, rfl⟩
  rw [e]
  constructor
  · rintro ⟨rs, h, rfl, rfl⟩
    have hlen := h.length_eq
    rw [List.length_zipIdx] at hlen
    refine ⟨rs.map Prod.fst, by simp [hlen], by simp [hlen], rfl, ?_⟩
    intro i j hi
    have hi' : i < rs.length := by
      rw [← hlen]; exact (List.getElem?_eq_some_iff.1 hi).1
    have hget := List.forall₂_iff_get.1 h
    have := hget.2 i (by rw [List.length_zipIdx, hlen]; exact hi') hi'
    simp only [List.get_eq_getElem, List.getElem_zipIdx, zero_add] at this
    obtain ⟨hlt, rfl⟩ := List.getElem?_eq_some_iff.1 hi
    obtain ⟨d, c, g1, g2, g3⟩ := this
    exact ⟨rs[i].1, rs[i].2, d, c, by simp [hi'], by simp [hi'], g1, g2, g3⟩
  · rintro ⟨vs, h1, h2, rfl, h3⟩
    refine ⟨vs.zip js', ?_, ?_, ?_⟩
    · rw [List.forall₂_iff_get]
      refine ⟨by simp [h1, h2], ?_⟩
      intro i hi hi'
      simp only [List.get_eq_getElem, List.getElem_zipIdx, zero_add, List.getElem_zip]
      rw [List.length_zipIdx] at hi
      obtain ⟨v, j', d, c, e1, e2, e3, e4, e5⟩ := h3 i js[i] (by simp [hi])
      obtain ⟨a1, rfl⟩ := List.getElem?_eq_some_iff.1 e1
      obtain ⟨a2, rfl⟩ := List.getElem?_eq_some_iff.1 e2
      exact ⟨d, c, e3, e4, e5⟩
    · rw [List.map_fst_zip (by omega)]
    · rw [List.map_snd_zip (by omega)]

example : (multiTaxMoney [sampleTax, sampleTax] 500 2000 [(0, 0), (1, 100)] [(0, 20), (1, 0)]).map
    Prod.fst = .ok (80 + 70) := by decide +kernel

/-- **C32 fails for `tax_money` without explicit deductions and credits**: it raises
`TypeError`. -/
theorem C32_money_needs_deductions (js : List (Tax K)) (hne : js ≠ []) (income : K) (y : ℤ) :
    multiTaxMoney js income y [] [] = .error .typeError := by
  unfold multiTaxMoney
  cases js with
  | nil => exact absurd rfl hne
  | cons t js => simp [List.mapM_cons]

/-! ## C33: Canadian credits -/

/-- The inflation-adjusted value of a constants table. -/
def adjusted (tab : Dict ℤ K) (adj : Adjust K) (y : ℤ) : Except PyErr K := do
  let v ← extendInflationAdjusted (Dict.mapVals Val.scalar tab) adj y
  match v with
  | .scalar m => .ok m
  | _ => .error .typeError

/-- **C33.** The pension income credit is the RRSP income (the total withdrawn), up to the cap:
it lies between 0 and both. -/
theorem C33_pension_credit (cap : Dict ℤ K) (adj : Adjust K) (out : List K)
    (hout : ∀ x ∈ out, x ≤ 0) (y : ℤ) (m c : K) (hm : adjusted cap adj y = .ok m) (hm0 : 0 ≤ m)
    (h : pensionCredit cap adj out y = .ok c) :
    0 ≤ c ∧ c ≤ m ∧ c ≤ -out.sum ∧ (c = m ∨ c = -out.sum) := by
  have hs : out.sum ≤ 0 := by
    clear h
    induction out with
    | nil => simp
    | cons a out ih =>
      rw [List.sum_cons]
      have := hout a (by simp)
      have := ih fun x hx => hout x (by simp [hx])
      linarith
  unfold pensionCredit at h
  unfold adjusted at hm
  cases he : extendInflationAdjusted (Dict.mapVals Val.scalar cap) adj y with
  | error e => rw [he] at h; cases h
  | ok v =>
    rw [he, ok_bind] at h hm
    cases v with
    | dict d => cases h
    | list l => cases h
    | scalar m' =>
      cases hm; cases h
      rw [abs_of_nonpos hs]
      refine ⟨le_min (by linarith) hm0, min_le_right _ _, min_le_left _ _, ?_⟩
      rcases min_choice (-out.sum) m with h | h <;> simp [h]

/-- Net income as the spousal credit sees it. -/
def NetIncome (t : Tax K) (p : Payer K) (income : K) (y : ℤ) (n : K) : Prop :=
  ∃ d, deductionFor t p y = .ok d ∧ n = income - d

theorem spousal_eq (t : Tax K) (amount : Dict ℤ K) (p s : Payer K) (ip is : K) (lt : Bool)
    (y : ℤ) (np ns m : K) (hp : NetIncome t p ip y np) (hs : NetIncome t s is y ns)
    (hm : adjusted amount t.adjust y = .ok m) :
    spousalCredit t amount p (some s) ip is lt y
      = .ok (if np < ns then 0 else if np = ns ∧ lt then 0 else max (m - ns) 0) := by
  obtain ⟨dp, h1, rfl⟩ := hp
  obtain ⟨ds, h2, rfl⟩ := hs
  unfold spousalCredit
  unfold adjusted at hm
  cases he : extendInflationAdjusted (Dict.mapVals Val.scalar amount) t.adjust y with
  | error e => rw [he] at hm; cases hm
  | ok v =>
    rw [he, ok_bind] at hm
    cases v with
    | dict d => cases hm
    | list l => cases hm
    | scalar m' =>
      cases hm
      simp only [he, ok_bind, h1, h2]
      split
      · rfl
      · split <;> rfl

/-- **C33.** The spousal credit is never negative; of two spouses at most one gets it, and only
one whose net income is not below the other's (with equal incomes the order of memory addresses
`lt` decides); it falls as the spouse's income rises; and it does not exceed the spousal amount
unless the spouse's net income is negative. -/
theorem C33_spousal_credit (t : Tax K) (amount : Dict ℤ K) (p s : Payer K) (ip is : K) (lt : Bool)
    (y : ℤ) (np ns m : K) (hp : NetIncome t p ip y np) (hs : NetIncome t s is y ns)
    (hm : adjusted amount t.adjust y = .ok m) :
    ∃ cp cs, spousalCredit t amount p (some s) ip is lt y = .ok cp ∧
      spousalCredit t amount s (some p) is ip (!lt) y = .ok cs ∧
      0 ≤ cp ∧ (cp = 0 ∨ cs = 0) ∧ (np < ns → cp = 0) ∧
      (ns < np → cp = max (m - ns) 0) ∧ (0 ≤ ns → 0 ≤ m → cp ≤ m) ∧
      ∀ is' ns' cp', is ≤ is' → NetIncome t s is' y ns' →
        spousalCredit t amount p (some s) ip is' lt y = .ok cp' → cp' ≤ cp := by
  refine ⟨_, _, spousal_eq t amount p s ip is lt y np ns m hp hs hm,
    spousal_eq t amount s p is ip (!lt) y ns np m hs hp hm, ?_, ?_, ?_, ?_, ?_, ?_⟩
  · split
    · exact le_rfl
    · split
      · exact le_rfl
      · exact le_max_right _ _
  · rcases lt_trichotomy np ns with h | h | h
    · simp [h]
    · cases lt <;> simp [h]
    · simp [h]
  · intro h; simp [h]
  · intro h; simp [not_lt.2 h.le, h.ne']
  · intro h0 hm0
    split
    · exact hm0
    · split
      · exact hm0
      · exact max_le (by linarith) hm0
  · intro is' ns' cp' hle hs' hcp'
    rw [spousal_eq t amount p s ip is' lt y np ns' m hp hs' hm] at hcp'
    simp only [Except.ok.injEq] at hcp'
    subst hcp'
    have hns : ns ≤ ns' := by
      obtain ⟨d, h1, rfl⟩ := hs
      obtain ⟨d', h1', rfl⟩ := hs'
      rw [h1] at h1'; cases h1'
      linarith
    have h0 : (0 : K) ≤ if np < ns then 0 else if np = ns ∧ lt = true then 0 else max (m - ns) 0 := by
      split
      · exact le_rfl
      · split
        · exact le_rfl
        · exact le_max_right _ _
    by_cases c1 : np < ns'
    · simp only [c1, if_true]; exact h0
    · by_cases c2 : np = ns' ∧ lt = true
      · simp only [c1, if_false, c2, and_self, if_true]; simpa [c2] using h0
      · simp only [c1, if_false, c2]
        have c3 : ¬ np < ns := fun h => c1 (lt_of_lt_of_le h hns)
        simp only [c3, if_false]
        by_cases c4 : np = ns ∧ lt = true
        · exfalso
          apply c2
          refine ⟨le_antisymm ?_ (not_lt.1 c1), c4.2⟩
          rw [c4.1]; exact hns
        · simp only [c4, if_false]
          exact max_le_max (by linarith) le_rfl

/-- **C33: the credit can exceed the spousal amount**, because the personal deduction is taken
off the spouse's income first: with a spouse without income the credit is the spousal amount
*plus* the personal deduction. -/
theorem C33_spousal_credit_exceeds_amount :
    adjusted [(2000, 70)] sampleAdjust 2000 = .ok 70 ∧
    spousalCredit sampleTax [(2000, 70)] (payer 0 (some 1) 500 0 0) (some (payer 1 (some 0) 0 0 0))
      500 0 true 2000 = .ok 120 := by
  constructor <;> decide +kernel

example : NetIncome sampleTax (payer 0 (some 1) 500 0 0) 500 2000 450 :=
  ⟨50, by decide +kernel, by decide +kernel⟩

/-- **C33.** The credits of a taxpayer are the person's own credits, plus the pension income
credit, plus — for somebody with a spouse — the spousal credit; and each part must be
available. -/
theorem C33_total_credit (E : CanEnv K) (t : Tax K) (p : Payer K) (y : ℤ) (x : K) :
    (p.spouse = none → ((canadaJur E t).credit t p y = .ok x ↔
      ∃ own pen, p.taxCredit y = some own ∧
        pensionCredit E.pensionCap t.adjust (E.rrspOutflows p.id) y = .ok pen ∧ x = own + pen)) ∧
    (∀ i s, p.spouse = some i → E.payer i = some s → ((canadaJur E t).credit t p y = .ok x ↔
      ∃ own pen sp, p.taxCredit y = some own ∧
        pensionCredit E.pensionCap t.adjust (E.rrspOutflows p.id) y = .ok pen ∧
        spousalCredit t E.spousalAmount p (some s) (E.income p.id) (E.income s.id)
          (E.idLt p.id s.id) y = .ok sp ∧
        x = own + pen + sp)) := by
  have hown : ∀ c, creditFor p y = .ok c ↔ p.taxCredit y = some c := by
    intro c
    unfold creditFor hist
    cases p.taxCredit y <;> simp
  constructor
  · intro hs
    simp only [canadaJur, canadaCredit, hs, bind_ok_iff, hown, Option.bind_none,
      Except.ok.injEq]
    constructor
    · rintro ⟨c, h1, d, h2, rfl⟩; exact ⟨c, d, h1, h2, rfl⟩
    · rintro ⟨c, d, h1, h2, rfl⟩; exact ⟨c, h1, d, h2, rfl⟩
  · intro i s hs hi
    simp only [canadaJur, canadaCredit, hs, bind_ok_iff, hown, Option.bind_some, hi,
      Except.ok.injEq]
    constructor
    · rintro ⟨c, h1, d, h2, e, h3, rfl⟩; exact ⟨c, d, e, h1, h2, h3, rfl⟩
    · rintro ⟨c, d, e, h1, h2, h3, rfl⟩; exact ⟨c, h1, d, h2, e, h3, rfl⟩

/-- A couple with a pension: 20 of their own, 30 of the 40 withdrawn, and the spousal credit. -/
def sampleCan : CanEnv ℚ where
  pensionCap := [(2000, 30)]
  spousalAmount := [(2000, 70)]
  rrspOutflows i := if i = 0 then [-25, -15] else []
  payer i := if i = 1 then some (payer 1 (some 0) 0 0 0) else none
  income i := if i = 0 then 500 else 0
  idLt i j := i < j

example : canadaCredit sampleCan sampleTax (payer 0 (some 1) 500 0 20) 2000 = .ok (20 + 30 + 120) ∧
    canadaCredit sampleCan sampleTax (payer 0 none 500 0 20) 2000 = .ok (20 + 30) := by
  constructor <;> decide +kernel

/-! ## C50: calling `TaxCanada` -/

/-- **C50.** The tax is the sum of the federal and the provincial tax, each with its own
deduction and credit. -/
theorem C50_canada_is_federal_plus_provincial (fed prov : Jur K) (income : Income K) (y : ℤ)
    (fd fc pd pc : Option (Amount K)) (x1 x2 : K) (j1 j2 : Jur K)
    (h1 : call fed income y fd fc = .ok (x1, j1)) (h2 : call prov income y pd pc = .ok (x2, j2)) :
    (canadaCall fed prov income y fd fc pd pc none none).1 = .ok (x1 + x2, [j1, j2]) := by
  have g0 : ∀ (a b : Option (Amount K)),
      Dict.get? (setOpt (setOpt ([] : Dict ℕ (Amount K)) 0 a) 1 b) 0 = a ∧
      Dict.get? (setOpt (setOpt ([] : Dict ℕ (Amount K)) 0 a) 1 b) 1 = b := by
    intro a b
    cases a <;> cases b <;> simp [setOpt, Dict.set, Dict.get?]
  unfold canadaCall multiCall
  simp [List.mapM_cons, List.zipIdx, g0, h1, h2]

/-- **C50: the caller's dicts are changed.** A deduction given with the call stays in the
`deductions` dict the caller passed in, and so applies to a later call with that dict. -/
theorem C50_call_changes_callers_dict (fed prov : Jur K) (income : Income K) (y : ℤ)
    (a : Amount K) :
    (canadaCall fed prov income y (some a) none none none (some []) none).2.1 = some [(0, a)] :=
  rfl

end Forecaster.Tax
