import Verif.Model.TaxMulti
import Verif.Model.Shipped
import Verif.Props.Planning
import Mathlib.Algebra.BigOperators.Group.Finset.Basic
import Mathlib.Algebra.Order.BigOperators.Group.Finset
import Mathlib.Algebra.BigOperators.Ring.Finset

/-!
# Property C106: asking several jurisdictions at once

What a `TaxMulti` says about people, brackets, deductions and timings, compared with what its
jurisdictions say one by one.
-/

set_option linter.unusedSectionVars false

namespace Forecaster.Tax

open Forecaster Forecaster.Inflation Forecaster.Timing

variable {K : Type} [Field K] [LinearOrder K] [IsStrictOrderedRing K]

/-- **Specification.** `x` is the sum of the amounts that `ask` gives for each of the `js`, asked one
by one, and `js'` are the jurisdictions afterwards. -/
def Together {J : Type} (js : List J) (ask : J → ℕ → Except PyErr (K × J)) (x : K) (js' : List J) :
    Prop :=
  ∃ vs : List K, vs.length = js.length ∧ js'.length = js.length ∧ x = vs.sum ∧
    ∀ (i : ℕ) (j : J), js[i]? = some j → ∃ v j', vs[i]? = some v ∧ js'[i]? = some j' ∧
      ask j i = .ok (v, j')

theorem sumOver_ok {J : Type} (js : List J) (f : J → ℕ → Except PyErr (K × J)) (x : K)
    (js' : List J) : sumOver js f = .ok (x, js') ↔ Together js f x js' := by
  have e : sumOver js f = .ok (x, js') ↔ ∃ rs : List (K × J),
      List.Forall₂ (fun ji r => f ji.1 ji.2 = .ok r) js.zipIdx rs ∧
      x = (rs.map Prod.fst).sum ∧ js' = rs.map Prod.snd := by
    unfold sumOver
    cases hm : js.zipIdx.mapM fun ji => f ji.1 ji.2 with
    | error e =>
      simp only [error_bind, reduceCtorEq, false_iff, not_exists, not_and]
      intro rs h
      rw [← mapM_ok (fun ji : J × ℕ => f ji.1 ji.2), hm] at h
      cases h
    | ok rs =>
      simp only [ok_bind, Except.ok.injEq, Prod.mk.injEq]
      constructor
      · rintro ⟨rfl, rfl⟩
        exact ⟨rs, (mapM_ok _ _ _).1 hm, rfl, rfl⟩
      · rintro ⟨rs', h, rfl, rfl⟩
        rw [← mapM_ok (fun ji : J × ℕ => f ji.1 ji.2), hm] at h
        cases h; exact ⟨rfl, rfl⟩
  rw [e]
  constructor
  · rintro ⟨rs, h, rfl, rfl⟩
    have hlen := h.length_eq
    rw [List.length_zipIdx] at hlen
    refine ⟨rs.map Prod.fst, by simp [hlen], by simp [hlen], rfl, ?_⟩
    intro i j hi
    have hi' : i < rs.length := by
      rw [← hlen]; exact (List.getElem?_eq_some_iff.1 hi).1
    have hget := List.forall₂_iff_get.1 h
    have := hget.2 i (by rw [List.length_zipIdx, hlen]; exact hi') hi'
    simp only [List.get_eq_getElem, List.getElem_zipIdx, zero_add] at this
    obtain ⟨hlt, rfl⟩ := List.getElem?_eq_some_iff.1 hi
    refine ⟨rs[i].1, rs[i].2, by simp [hi'], by simp [hi'], this⟩
  · rintro ⟨vs, h1, h2, rfl, h3⟩
    refine ⟨vs.zip js', ?_, ?_, ?_⟩
    · rw [List.forall₂_iff_get]
      refine ⟨by simp [h1, h2], ?_⟩
      intro i hi hi'
      simp only [List.get_eq_getElem, List.getElem_zipIdx, zero_add, List.getElem_zip]
      rw [List.length_zipIdx] at hi
      obtain ⟨v, j', e1, e2, e3⟩ := h3 i js[i] (by simp [hi])
      obtain ⟨a1, rfl⟩ := List.getElem?_eq_some_iff.1 e1
      obtain ⟨a2, rfl⟩ := List.getElem?_eq_some_iff.1 e2
      exact e3
    · rw [List.map_fst_zip (by omega)]
    · rw [List.map_snd_zip (by omega)]

theorem sumOver_congr {J : Type} {js : List J} {f g : J → ℕ → Except PyErr (K × J)}
    (h : ∀ (i : ℕ) (j : J), js[i]? = some j → f j i = g j i) : sumOver js f = sumOver js g := by
  have : ∀ x js', sumOver js f = .ok (x, js') ↔ sumOver js g = .ok (x, js') := by
    intro x js'
    rw [sumOver_ok, sumOver_ok]
    unfold Together
    constructor <;> rintro ⟨vs, h1, h2, h3, h4⟩ <;> refine ⟨vs, h1, h2, h3, fun i j hi => ?_⟩ <;>
      obtain ⟨v, j', e1, e2, e3⟩ := h4 i j hi
    · exact ⟨v, j', e1, e2, (h i j hi) ▸ e3⟩
    · exact ⟨v, j', e1, e2, (h i j hi).symm ▸ e3⟩
  have hm : (js.zipIdx.mapM fun ji => f ji.1 ji.2) = js.zipIdx.mapM fun ji => g ji.1 ji.2 := by
    clear this
    have gen : ∀ l : List (J × ℕ), (∀ ji ∈ l, f ji.1 ji.2 = g ji.1 ji.2) →
        (l.mapM fun ji => f ji.1 ji.2) = l.mapM fun ji => g ji.1 ji.2 := by
      intro l hl
      induction l with
      | nil => rfl
      | cons a l ih =>
        rw [List.mapM_cons, List.mapM_cons, hl a (by simp), ih fun b hb => hl b (by simp [hb])]
    refine gen _ fun ji hji => h ji.2 ji.1 ?_
    obtain ⟨j, i⟩ := ji
    rw [List.mem_zipIdx_iff_getElem?] at hji
    exact hji
  unfold sumOver
  rw [hm]

/-! ### People -/

/-- **C106** (people). `tax_people` adds up what the jurisdictions' `tax_people` say, and is the same
as calling the `TaxMulti` with the people: both succeed or fail alike, with the same tax. -/
theorem C106_people (js : List (Jur K)) (ps : List (Payer K)) (y : ℤ) (ded cred : Dict ℕ (Dict ℕ K)) :
    (∀ x js', multiTaxPeople js ps y ded cred = .ok (x, js') ↔
      Together js (fun j i => taxPeople j ps y ((Dict.get? ded i).getD []) ((Dict.get? cred i).getD []))
        x js') ∧
    multiTaxPeople js ps y ded cred
      = multiCall js (.people ps) y (Dict.mapVals .perPerson ded) (Dict.mapVals .perPerson cred) := by
  refine ⟨fun x js' => sumOver_ok _ _ _ _, ?_⟩
  have e : multiCall js (.people ps) y (Dict.mapVals .perPerson ded) (Dict.mapVals .perPerson cred)
      = sumOver js fun j i => call j (.people ps) y (Dict.get? (Dict.mapVals .perPerson ded) i)
          (Dict.get? (Dict.mapVals .perPerson cred) i) := rfl
  rw [e]
  refine sumOver_congr fun i j _ => ?_
  have ha : ∀ d : Dict ℕ (Dict ℕ K), Amount.asDict (Dict.get? (Dict.mapVals Amount.perPerson d) i)
      = .ok ((Dict.get? d i).getD []) := by
    intro d
    rw [Dict.get?_mapVals]
    cases Dict.get? d i <;> rfl
  cases ps with
  | nil => rfl
  | cons p ps => simp only [call, ha, ok_bind]

/-- **C106** (spouses). For two people of whom the first names the second as the spouse, `tax_spouses`
gives what `tax_people` gives. -/
theorem C106_spouses (js : List (Jur K)) (p q : Payer K) (h1 : p.spouse = some q.id)
    (h2 : p.id ≠ q.id) (y : ℤ) (ded cred : Dict ℕ (Dict ℕ K)) :
    multiTaxSpouses js [p, q] y ded cred = multiTaxPeople js [p, q] y ded cred := by
  refine sumOver_congr fun i j _ => ?_
  generalize (Dict.get? ded i).getD [] = d
  generalize (Dict.get? cred i).getD [] = c
  have hf : (p.spouse.bind fun s => [p, q].find? fun r => r.id == s) = some q := by
    rw [h1]
    simp [h2]
  have hfil : ([p, q].filter fun r => r.id != p.id && r.id != q.id) = [] := by simp
  show taxSpouses j [p, q] y d c = taxPeopleAux 2 j [p, q] y d c
  rw [taxPeopleAux.eq_def]
  simp only [hf]
  rw [if_neg h2.symm, hfil]
  cases taxSpouses j [p, q] y d c with
  | error e => rfl
  | ok r => simp only [ok_bind, taxPeopleAux, add_zero]

theorem taxPersonNone_some (j : Jur K) (p : Payer K) (y : ℤ) (d c : K) :
    taxPersonNone j p y (some d) (some c) = taxPerson j p y d c := by
  unfold taxPersonNone taxPerson plusNone
  cases hist p.taxableIncome y <;> simp only [error_bind, ok_bind]

theorem taxPersonNone_none (j : Jur K) (p : Payer K) (y : ℤ) (d c : Option K)
    (h : d = none ∨ c = none) : ∀ r, taxPersonNone j p y d c ≠ .ok r := by
  intro r hr
  unfold taxPersonNone plusNone at hr
  cases h1 : hist p.taxableIncome y with
  | error e => simp only [h1, error_bind, reduceCtorEq] at hr
  | ok income =>
  cases h2 : hist p.taxDeduction y with
  | error e => simp only [h1, h2, ok_bind, error_bind, reduceCtorEq] at hr
  | ok d1 =>
  cases h3 : deductionFor j.tax p y with
  | error e => simp only [h1, h2, h3, ok_bind, error_bind, reduceCtorEq] at hr
  | ok d2 =>
  cases d with
  | none => simp only [h1, h2, h3, ok_bind, error_bind, reduceCtorEq] at hr
  | some d =>
  cases h4 : hist p.taxCredit y with
  | error e => simp only [h1, h2, h3, h4, ok_bind, error_bind, reduceCtorEq] at hr
  | ok c1 =>
  cases h5 : j.credit j.tax p y with
  | error e => simp only [h1, h2, h3, h4, h5, ok_bind, error_bind, reduceCtorEq] at hr
  | ok c2 =>
  cases c with
  | none => simp only [h1, h2, h3, h4, h5, ok_bind, error_bind, reduceCtorEq] at hr
  | some c => simp at h

/-- **C106** (one person). If a deduction and a credit are given for every jurisdiction, `tax_person`
is the same as calling the `TaxMulti` with the person. If for some jurisdiction one of them is missing
(as when `tax_person` is called with the person and the year alone) it never gives an answer, although
calling the `TaxMulti` may. -/
theorem C106_person (js : List (Jur K)) (p : Payer K) (y : ℤ) (ded cred : Dict ℕ K) :
    ((∀ i, i < js.length → i ∈ Dict.keys ded ∧ i ∈ Dict.keys cred) →
      multiTaxPerson js p y ded cred
        = multiCall js (.person p) y (Dict.mapVals .scalar ded) (Dict.mapVals .scalar cred)) ∧
    ((∃ i, i < js.length ∧ (i ∉ Dict.keys ded ∨ i ∉ Dict.keys cred)) →
      ∀ r, multiTaxPerson js p y ded cred ≠ .ok r) := by
  constructor
  · intro h
    have e : multiCall js (.person p) y (Dict.mapVals .scalar ded) (Dict.mapVals .scalar cred)
        = sumOver js fun j i => call j (.person p) y (Dict.get? (Dict.mapVals .scalar ded) i)
            (Dict.get? (Dict.mapVals .scalar cred) i) := rfl
    rw [e]
    refine sumOver_congr fun i j hi => ?_
    obtain ⟨k1, k2⟩ := h i (List.getElem?_eq_some_iff.1 hi).1
    obtain ⟨d, hd⟩ := Dict.mem_keys_iff.1 k1
    obtain ⟨c, hc⟩ := Dict.mem_keys_iff.1 k2
    rw [hd, hc, taxPersonNone_some, Dict.get?_mapVals, Dict.get?_mapVals, hd, hc]
    rfl
  · rintro ⟨i, hi, hn⟩ ⟨x, js'⟩ h
    obtain ⟨vs, -, -, -, h4⟩ := (sumOver_ok _ _ _ _).1 h
    obtain ⟨v, j', -, -, e⟩ := h4 i js[i] (by simp [hi])
    refine taxPersonNone_none _ _ _ _ _ ?_ _ e
    rcases hn with hn | hn
    · exact .inl (Dict.get?_eq_none.2 hn)
    · exact .inr (Dict.get?_eq_none.2 hn)

/-! ### Brackets -/

/-- **C106** (the rate of a bracket). `tax_brackets(year, bracket)` is the sum of what the
jurisdictions say, and answers exactly if the bracket is a threshold of every jurisdiction. -/
theorem C106_bracket_rate (js : List (Tax K)) (y : ℤ) (B : ℕ → Dict K K)
    (hB : ∀ (i : ℕ) (t : Tax K), js[i]? = some t → ∃ t', taxBrackets t y = .ok (B i, t')) (b : K) :
    ((∀ i, i < js.length → b ∈ Dict.keys (B i)) →
      ∃ js', multiBracketRate js y b
        = .ok (((List.range js.length).map fun i => Dict.val (B i) b).sum, js')) ∧
    ((∃ i, i < js.length ∧ b ∉ Dict.keys (B i)) → ∀ r, multiBracketRate js y b ≠ .ok r) := by
  constructor
  · intro h
    choose! u hu using hB
    refine ⟨js.zipIdx.map fun ji => u ji.2 ji.1, (sumOver_ok _ _ _ _).2
      ⟨_, by simp, by simp, rfl, fun i t hi => ?_⟩⟩
    have hlt := (List.getElem?_eq_some_iff.1 hi).1
    refine ⟨Dict.val (B i) b, u i t, by simp [hlt], ?_, ?_⟩
    · rw [List.getElem?_map, List.getElem?_zipIdx, hi]
      simp
    · show bracketRate t y b = _
      unfold bracketRate
      rw [hu i t hi, ok_bind]
      simp only [getItem]
      rw [Dict.get?_eq_some_val (h i hlt)]
      rfl
  · rintro ⟨i, hi, hn⟩ ⟨x, js'⟩ h
    obtain ⟨vs, -, -, -, h4⟩ := (sumOver_ok _ _ _ _).1 h
    obtain ⟨v, j', -, -, e⟩ := h4 i js[i] (by simp [hi])
    obtain ⟨t', ht⟩ := hB i js[i] (by simp [hi])
    change bracketRate _ y b = _ at e
    unfold bracketRate at e
    rw [ht, ok_bind] at e
    simp only [getItem] at e
    rw [Dict.get?_eq_none.2 hn] at e
    cases e

theorem pickBracket_unique {B B' : Dict K K} (h : ∀ b, b ∈ Dict.keys B ↔ b ∈ Dict.keys B') {x b b' : K}
    (hb : pickBracket B x = .ok b) (hb' : pickBracket B' x = .ok b') : b = b' := by
  rcases pickBracket_spec hb with ⟨a1, a2, a3⟩ | ⟨a1, a2, a3⟩ <;>
    rcases pickBracket_spec hb' with ⟨c1, c2, c3⟩ | ⟨c1, c2, c3⟩
  · exact le_antisymm (c3 b ((h b).1 a1) a2) (a3 b' ((h b').2 c1) c2)
  · exact absurd a2 (not_lt.2 (c1 b ((h b).1 a1)))
  · exact absurd c2 (not_lt.2 (a1 b' ((h b').2 c1)))
  · exact le_antisymm (a3 b' ((h b').2 c2)) (c3 b ((h b).1 a2))

/-- **C106** (the rate at the marginal bracket). If the jurisdictions have the same thresholds, the
rate of the combined marginal bracket is the combined marginal rate. -/
theorem C106_same_thresholds (js : List (Tax K)) (hj : ∀ t ∈ js, Reachable t) (y : ℤ)
    (B : ℕ → Dict K K)
    (hB : ∀ (i : ℕ) (t : Tax K), js[i]? = some t → ∃ t', taxBrackets t y = .ok (B i, t'))
    (hsame : ∀ i, i < js.length → ∀ b, b ∈ Dict.keys (B i) ↔ b ∈ Dict.keys (B 0))
    {x b r : K} {u1 u2 : List (Tax K)}
    (h1 : multiMarginalBracket js x y = .ok (b, u1)) (h2 : multiMarginalRate js x y = .ok (r, u2)) :
    ∃ js', multiBracketRate js y b = .ok (r, js') := by
  unfold multiMarginalBracket at h1
  unfold multiMarginalRate at h2
  cases hm1 : js.mapM fun t => marginalBracket t x y with
  | error e => rw [hm1] at h1; cases h1
  | ok bs =>
  cases hm2 : js.mapM fun t => marginalRate t x y with
  | error e => rw [hm2] at h2; cases h2
  | ok rs =>
  rw [hm1, ok_bind] at h1
  rw [hm2, ok_bind] at h2
  simp only [Except.ok.injEq, Prod.mk.injEq] at h2
  obtain ⟨rfl, -⟩ := h2
  rw [mapM_ok] at hm1 hm2
  have hlen1 := hm1.length_eq
  have hlen2 := hm2.length_eq
  rw [List.forall₂_iff_get] at hm1 hm2
  have hk : ∀ i (hi : i < js.length), ∃ b', pickBracket (B i) x = .ok b' ∧
      (bs[i]'(by omega)).1 = b' ∧ b' ∈ Dict.keys (B i) ∧
      (rs[i]'(by omega)).1 = Dict.val (B i) b' := by
    intro i hi
    obtain ⟨t', ht⟩ := hB i js[i] (by simp [hi])
    have hr := (hj js[i] (by simp)).inv
    obtain ⟨b1, p1, e1⟩ := marginalBracket_eq hr ht x
    obtain ⟨b2, p2, k2, e2⟩ := marginalRate_eq hr ht x
    have g1 := hm1.2 i hi (by omega)
    have g2 := hm2.2 i hi (by omega)
    simp only [List.get_eq_getElem] at g1 g2
    rw [e1] at g1
    rw [e2] at g2
    rw [p1] at p2
    cases p2
    simp only [Except.ok.injEq] at g1 g2
    exact ⟨b1, p1, by rw [← g1], k2, by rw [← g2]⟩
  have hone : ∀ i (hi : i < js.length), (bs[i]'(by omega)).1 = b := by
    cases hmx : (bs.map Prod.fst).max? with
    | none => rw [hmx] at h1; cases h1
    | some m =>
      rw [hmx] at h1; cases h1
      obtain ⟨hmem, -⟩ := max?_mem hmx
      obtain ⟨w, hw, hwb⟩ := List.mem_map.1 hmem
      obtain ⟨n, hn, rfl⟩ := List.getElem_of_mem hw
      intro i hi
      obtain ⟨b1, p1, e1, -, -⟩ := hk i hi
      obtain ⟨b2, p2, e2, -, -⟩ := hk n (by omega)
      rw [e1, ← hwb, e2]
      exact pickBracket_unique (fun b => (hsame i hi b).trans (hsame n (by omega) b).symm) p1 p2
  obtain ⟨js', e⟩ := (C106_bracket_rate js y B hB b).1 fun i hi => by
    obtain ⟨b1, -, e1, k1, -⟩ := hk i hi
    rw [← hone i hi, e1]
    exact k1
  refine ⟨js', ?_⟩
  rw [e]
  have : (List.range js.length).map (fun i => Dict.val (B i) b) = rs.map Prod.fst := by
    apply List.ext_getElem (by simp [hlen2])
    intro i hi hi'
    simp only [List.length_map, List.length_range] at hi
    obtain ⟨b1, -, e1, -, e2⟩ := hk i hi
    simp only [List.getElem_map, List.getElem_range]
    rw [e2, ← hone i hi, e1]
  rw [this]

/-- **C106** (accumulated tax). `accum(year, bracket)` adds up what the jurisdictions say;
`accum(year)` never answers, unless there is no jurisdiction: if the first jurisdiction can say, a
`TypeError` is raised. -/
theorem C106_accum (js : List (Tax K)) (y : ℤ) :
    (∀ b x js', multiAccum js y (some b) = .ok (x, js') ↔
      Together js (fun t _ => match accum t y with
        | .error e => .error e
        | .ok (table, t') => (match Dict.get? table b with
          | some v => .ok (v, t')
          | none => .error .keyError)) x js') ∧
    (js ≠ [] → ∀ r, multiAccum js y none ≠ .ok r) ∧
    (∀ t rest a, js = t :: rest → accum t y = .ok a → multiAccum js y none = .error .typeError) := by
  refine ⟨fun b x js' => ?_, fun hne r h => ?_, fun t rest a hj ha => ?_⟩
  · have e : ∀ (t : Tax K), accumAt t y b = (match accum t y with
        | .error e => .error e
        | .ok (table, t') => (match Dict.get? table b with
          | some v => .ok (v, t')
          | none => .error .keyError)) := by
      intro t
      unfold accumAt getItem
      cases accum t y with
      | error e => rfl
      | ok r =>
        obtain ⟨table, t'⟩ := r
        simp only [ok_bind]
        cases Dict.get? table b <;> rfl
    simp only [← e]
    exact sumOver_ok js (fun t _ => accumAt t y b) x js'
  swap
  · subst hj
    unfold multiAccum
    simp only [ha, ok_bind]
  cases js with
  | nil => exact hne rfl
  | cons t ts =>
    unfold multiAccum at h
    simp only at h
    cases e : accum t y with
    | error _ => rw [e] at h; cases h
    | ok w => rw [e] at h; cases h

/-! ### Only the first jurisdiction -/

/-- **C106** (deductions and credits). `personal_deduction`, `credit_rate` and `credit` are those of
the first jurisdiction, whatever the others say; `deduction` raises `AttributeError`. -/
theorem C106_first (j : Jur K) (js : List (Jur K)) (p : Payer K) (y : ℤ) (d : Option (Dict ℕ K)) :
    multiPersonalDeduction ((j :: js).map Jur.tax) y = personalDeduction j.tax y ∧
    multiCreditRate ((j :: js).map Jur.tax) y = creditRate j.tax y ∧
    multiCredit (j :: js) p y d = j.credit j.tax p y ∧
    multiDeduction (j :: js) p y = .error .attributeError ∧
    (∀ r, multiDeduction ([] : List (Jur K)) p y ≠ .ok r) := by
  refine ⟨rfl, rfl, rfl, rfl, fun r h => ?_⟩
  cases h

/-! ### Timings -/

/-- **C106** (payment timing). Setting the payment timing of a `TaxMulti` sets that of the first
jurisdiction, from which it is read; refund timing, taxes and the other jurisdictions are left as they
were. It fails exactly when the timing cannot be made, or there is no jurisdiction. -/
theorem C106_payment_timing (as : List (Authority K)) (val : Arg K) :
    (∀ as', multiSetPayment as val = .ok as' →
      ∃ d, Timing.init val (.num 1) = .ok d ∧ multiPayment as' = .ok d ∧
        multiRefund as' = multiRefund as ∧ as'.map Authority.jur = as.map Authority.jur ∧
        as'.tail = as.tail) ∧
    ((∃ as', multiSetPayment as val = .ok as') ↔
      as ≠ [] ∧ ∃ d, Timing.init val (.num 1) = .ok d) := by
  cases as with
  | nil => simp [multiSetPayment]
  | cons a as =>
    unfold multiSetPayment Authority.setPayment
    cases e : Timing.init val (.num 1) with
    | error _ => simp
    | ok d =>
      simp only [ok_bind, Except.ok.injEq, exists_eq', ne_eq, reduceCtorEq, not_false_eq_true,
        and_self, and_true]
      rintro as' rfl
      exact ⟨d, rfl, rfl, rfl, rfl, rfl⟩

/-- **C106** (refund timing). The same for the refund timing. -/
theorem C106_refund_timing (as : List (Authority K)) (val : Arg K) :
    (∀ as', multiSetRefund as val = .ok as' →
      ∃ d, Timing.init val (.num 1) = .ok d ∧ multiRefund as' = .ok d ∧
        multiPayment as' = multiPayment as ∧ as'.map Authority.jur = as.map Authority.jur ∧
        as'.tail = as.tail) ∧
    ((∃ as', multiSetRefund as val = .ok as') ↔
      as ≠ [] ∧ ∃ d, Timing.init val (.num 1) = .ok d) := by
  cases as with
  | nil => simp [multiSetRefund]
  | cons a as =>
    unfold multiSetRefund Authority.setRefund
    cases e : Timing.init val (.num 1) with
    | error _ => simp
    | ok d =>
      simp only [ok_bind, Except.ok.injEq, exists_eq', ne_eq, reduceCtorEq, not_false_eq_true,
        and_self, and_true]
      rintro as' rfl
      exact ⟨d, rfl, rfl, rfl, rfl, rfl⟩

/-! ### Planning -/

/-- **Specification.** Each of the jurisdictions has, in the year `y`, a table `B i` with rates that
are not negative, and is given a credit `c i` that is not negative and a deduction `d i`. -/
def AllSane (js : List (Jur K)) (y : ℤ) (ded cred : Dict ℕ (Amount K)) (B : ℕ → Dict K K)
    (d c : ℕ → K) : Prop :=
  ∀ (i : ℕ) (j : Jur K), js[i]? = some j → Sane j.tax y (B i) (c i) ∧
    Amount.asScalar (Dict.get? ded i) = .ok (d i) ∧ Amount.asScalar (Dict.get? cred i) = .ok (c i)

theorem sum_range (vs : List K) :
    vs.sum = ∑ i ∈ Finset.range vs.length, (vs[i]?).getD 0 := by
  induction vs with
  | nil => rfl
  | cons v vs ih =>
    rw [List.sum_cons, List.length_cons, Finset.sum_range_succ', ih, add_comm]
    simp

/-- The tax on an amount of money, jurisdiction by jurisdiction. -/
theorem money_parts {js : List (Jur K)} {y : ℤ} {ded cred : Dict ℕ (Amount K)} {B : ℕ → Dict K K}
    {d c : ℕ → K} (h : AllSane js y ded cred B d c) {x v : K} {js' : List (Jur K)}
    (hv : multiCall js (.money x) y ded cred = .ok (v, js')) :
    ∃ f : ℕ → K, v = ∑ i ∈ Finset.range js.length, f i ∧
      ∀ (i : ℕ) (j : Jur K), js[i]? = some j → ∃ t', taxMoney j.tax x y (d i) (c i) = .ok (f i, t') := by
  obtain ⟨vs, h1, -, rfl, h4⟩ := (C32_multi_is_sum _ _ _ _ _ _ _).1 hv
  refine ⟨fun i => (vs[i]?).getD 0, by rw [sum_range, h1], fun i j hi => ?_⟩
  obtain ⟨v, j', e1, -, e3⟩ := h4 i j hi
  obtain ⟨-, k1, k2⟩ := h i j hi
  simp only [call, k1, k2, ok_bind] at e3
  cases hm : taxMoney j.tax x y (d i) (c i) with
  | error e => rw [hm] at e3; cases e3
  | ok w =>
    rw [hm, ok_bind] at e3
    cases e3
    exact ⟨w.2, by simp [e1]⟩

/-- **C106** (planning, defined). Under sane tables every amount can be taxed, never below zero. -/
theorem C106_planning_defined {js : List (Jur K)} {y : ℤ} {ded cred : Dict ℕ (Amount K)}
    {B : ℕ → Dict K K} {d c : ℕ → K} (h : AllSane js y ded cred B d c) (x : K) :
    ∃ v js', multiCall js (.money x) y ded cred = .ok (v, js') ∧ 0 ≤ v := by
  have hx : ∀ (i : ℕ) (j : Jur K), js[i]? = some j → ∃ w : K × Jur K,
      call j (.money x) y (Dict.get? ded i) (Dict.get? cred i) = .ok w ∧ 0 ≤ w.1 := by
    intro i j hi
    obtain ⟨hs, k1, k2⟩ := h i j hi
    obtain ⟨v, t', e, h0, -⟩ := C28_zero_below_lowest hs x (d i)
    refine ⟨(v, { j with tax := t' }), ?_, h0⟩
    simp only [call, k1, k2, ok_bind, e]
  choose! w hw h0 using hx
  refine ⟨_, js.zipIdx.map fun ji => (w ji.2 ji.1).2, (C32_multi_is_sum _ _ _ _ _ _ _).2
    ⟨js.zipIdx.map fun ji => (w ji.2 ji.1).1, by simp, by simp, rfl, fun i j hi => ?_⟩, ?_⟩
  · refine ⟨(w i j).1, (w i j).2, ?_, ?_, hw i j hi⟩ <;>
      rw [List.getElem?_map, List.getElem?_zipIdx, hi] <;> simp
  · refine List.sum_nonneg fun a ha => ?_
    obtain ⟨⟨j, i⟩, hji, rfl⟩ := List.mem_map.1 ha
    rw [List.mem_zipIdx_iff_getElem?] at hji
    exact h0 i j hji

/-- **C106** (planning, earning more). Earning more never lowers the total tax, and raises it by no
more than the sum `ΣR` of the top rates times the difference: with top rates that together stay below
100% one never loses by earning more. -/
theorem C106_planning_more {js : List (Jur K)} {y : ℤ} {ded cred : Dict ℕ (Amount K)}
    {B : ℕ → Dict K K} {d c : ℕ → K} (h : AllSane js y ded cred B d c) {R : ℕ → K}
    (hR : ∀ i, ∀ kv ∈ B i, kv.2 ≤ R i) {x1 x2 v1 v2 : K} {u1 u2 : List (Jur K)} (hx : x1 ≤ x2)
    (h1 : multiCall js (.money x1) y ded cred = .ok (v1, u1))
    (h2 : multiCall js (.money x2) y ded cred = .ok (v2, u2)) :
    v1 ≤ v2 ∧ v2 - v1 ≤ ((List.range js.length).map R).sum * (x2 - x1) := by
  obtain ⟨f1, rfl, g1⟩ := money_parts h h1
  obtain ⟨f2, rfl, g2⟩ := money_parts h h2
  have key : ∀ i ∈ Finset.range js.length, f1 i ≤ f2 i ∧ f2 i - f1 i ≤ R i * (x2 - x1) := by
    intro i hi
    have hi' := Finset.mem_range.1 hi
    have hj : js[i]? = some js[i] := by simp [hi']
    obtain ⟨t1, e1⟩ := g1 i _ hj
    obtain ⟨t2, e2⟩ := g2 i _ hj
    exact ⟨C28_monotone (h i _ hj).1 hx le_rfl e1 e2,
      (C28_lipschitz (h i _ hj).1 (hR i) hx e1 e2).1⟩
  refine ⟨Finset.sum_le_sum fun i hi => (key i hi).1, ?_⟩
  have e : ((List.range js.length).map R).sum = ∑ i ∈ Finset.range js.length, R i := by
    rw [sum_range]
    simp only [List.length_map, List.length_range]
    refine Finset.sum_congr rfl fun i hi => ?_
    simp [Finset.mem_range.1 hi]
  rw [e, Finset.sum_mul, ← Finset.sum_sub_distrib]
  exact Finset.sum_le_sum fun i hi => (key i hi).2

/-- **C106** (planning, evening out). If every jurisdiction's rates rise, two more equal incomes with
the same total bear no more tax together than two less equal ones. -/
theorem C106_planning_evening_out {js : List (Jur K)} {y : ℤ} {ded cred : Dict ℕ (Amount K)}
    {B : ℕ → Dict K K} {d c : ℕ → K} (h : AllSane js y ded cred B d c)
    (hp : ∀ i, i < js.length → Progressive (B i)) {a b a' b' va vb va' vb' : K}
    {u1 u2 u3 u4 : List (Jur K)} (hsum : a' + b' = a + b) (h1 : a ≤ a') (h2 : a' ≤ b)
    (ha : multiCall js (.money a) y ded cred = .ok (va, u1))
    (hb : multiCall js (.money b) y ded cred = .ok (vb, u2))
    (ha' : multiCall js (.money a') y ded cred = .ok (va', u3))
    (hb' : multiCall js (.money b') y ded cred = .ok (vb', u4)) :
    va' + vb' ≤ va + vb := by
  obtain ⟨f1, rfl, g1⟩ := money_parts h ha
  obtain ⟨f2, rfl, g2⟩ := money_parts h hb
  obtain ⟨f3, rfl, g3⟩ := money_parts h ha'
  obtain ⟨f4, rfl, g4⟩ := money_parts h hb'
  rw [← Finset.sum_add_distrib, ← Finset.sum_add_distrib]
  refine Finset.sum_le_sum fun i hi => ?_
  have hi' := Finset.mem_range.1 hi
  have hj : js[i]? = some js[i] := by simp [hi']
  obtain ⟨t1, e1⟩ := g1 i _ hj
  obtain ⟨t2, e2⟩ := g2 i _ hj
  obtain ⟨t3, e3⟩ := g3 i _ hj
  obtain ⟨t4, e4⟩ := g4 i _ hj
  exact C103_evening_out (h i _ hj).1 (hp i hi') hsum h1 h2 e1 e2 e3 e4

/-! ### Examples and refutations -/

/-- Another tax, with other thresholds. -/
def otherTax : Tax ℚ :=
  ⟨[(2000, [(0, 1 / 20), (200, 1 / 4)])], [(2000, [(0, 0), (200, 10)])], [(2000, 70)], [(2000, 1)],
    sampleAdjust⟩

theorem other_init :
    init [(2000, [(0, 1 / 20), (200, 1 / 4)])] [(2000, 70)] [(2000, 1)] sampleAdjust = .ok otherTax := by
  have h : accumTable ([(0, 1 / 20), (200, 1 / 4)] : Dict ℚ ℚ) = .ok [(0, 0), (200, 10)] := by
    decide +kernel
  unfold init
  simp only [List.foldlM_cons, List.foldlM_nil, addBrackets, h, ok_bind, except_pure, Dict.set]
  rfl

theorem other_reachable : Reachable otherTax := by
  refine ⟨_, _, _, _, otherTax, [], ⟨?_, ?_⟩, other_init, rfl⟩ <;> simp [Dict.wf_cons]

theorem other_sane : Sane otherTax 2000 [(0, 1 / 20), (200, 1 / 4)] 0 :=
  ⟨other_reachable, ⟨otherTax, rfl⟩, by decide +kernel, by decide +kernel,
    ⟨1, by decide +kernel, by decide +kernel⟩⟩

/-- **C106, refuted**: that `tax_person(person, year)` is the tax on the person. It raises `TypeError`,
while calling the same object with the same arguments gives the tax. -/
theorem C106_person_alone_fails :
    (multiTaxPerson [base sampleTax, base otherTax] (payer 0 none 950 0 0) 2000 [] []).map Prod.fst
      = .error .typeError ∧
    (multiCall [base sampleTax, base otherTax] (.person (payer 0 none 950 0 0)) 2000 [] []).map Prod.fst
      = .ok (170 + 180) ∧
    (multiTaxPeople [base sampleTax, base otherTax] [payer 0 none 950 0 0] 2000 [] []).map Prod.fst
      = .ok (170 + 180) := by
  refine ⟨?_, ?_, ?_⟩ <;> decide +kernel

/-- **C106, refuted**: that the marginal rate is the rate of the marginal bracket. With jurisdictions
whose thresholds differ, asking for the rate of the combined marginal bracket raises `KeyError`. -/
theorem C106_marginal_bracket_has_no_rate :
    (multiMarginalBracket [sampleTax, otherTax] 500 2000).map Prod.fst = .ok 200 ∧
    (multiMarginalRate [sampleTax, otherTax] 500 2000).map Prod.fst = .ok (1 / 5 + 1 / 4) ∧
    (multiBracketRate [sampleTax, otherTax] 2000 200).map Prod.fst = .error .keyError := by
  refine ⟨?_, ?_, ?_⟩ <;> decide +kernel

/-- **C106, refuted**: that nobody who earns no more than `personal_deduction` owes tax. With the
shipped constants of 2017 it is 11635, of which British Columbia taxes 1427. -/
theorem C106_personal_deduction_is_taxed :
    ((Shipped.taxCanada (K := ℚ) fun _ _ => .ok 1).bind fun (f, p) =>
      multiPersonalDeduction [f, p] 2017) = .ok 11635 ∧
    ((Shipped.taxCanada (K := ℚ) fun _ _ => .ok 1).bind fun (f, p) =>
      (multiCall [base f, base p] (.person (payer 0 none 11635 0 0)) 2017 [] []).map Prod.fst)
        = .ok (1427 * (15 / 100)) := by
  refine ⟨?_, ?_⟩ <;> decide +kernel

example : (multiTaxSpouses [base sampleTax, base otherTax]
    [payer 0 (some 1) 950 0 0, payer 1 (some 0) 500 0 0] 2000 [(1, [(0, 10)])] []).map Prod.fst
      = .ok (170 + 80 + (355 / 2) + (135 / 2)) := by
  decide +kernel

example : (multiTaxPerson [base sampleTax, base otherTax] (payer 0 none 950 0 0) 2000
    [(0, 100), (1, 0)] [(0, 0), (1, 5)]).map Prod.fst = .ok (150 + 175) := by
  decide +kernel

/-- The same thresholds. -/
example : (multiMarginalBracket [sampleTax, sampleTax] 500 2000).map Prod.fst = .ok 100 ∧
    (multiMarginalRate [sampleTax, sampleTax] 500 2000).map Prod.fst = .ok (2 / 5) ∧
    (multiBracketRate [sampleTax, sampleTax] 2000 100).map Prod.fst = .ok (2 / 5) ∧
    (multiAccum [sampleTax, sampleTax] 2000 (some 100)).map Prod.fst = .ok 20 := by
  refine ⟨?_, ?_, ?_, ?_⟩ <;> decide +kernel

/-- Timings: the second jurisdiction keeps its own. -/
example : (multiSetPayment [⟨base sampleTax, [(0, 1)], [(0, 1)]⟩, ⟨base otherTax, [(0, 1)], [(0, 1)]⟩]
    (.scalar (.num (1 / 2 : ℚ)))).map (fun as => as.map fun a => (a.payment, a.refund))
      = .ok [([(1 / 2, 1)], [(0, 1)]), ([(0, 1)], [(0, 1)])] := by
  decide +kernel

/-- The setting of the planning theorems is met by two different taxes, of which one is given a
deduction and the other nothing. -/
theorem sample_allSane : AllSane [base sampleTax, base otherTax] 2000 [(0, .scalar 100)]
    [(0, .scalar 20)] (fun i => if i = 0 then [(0, 1 / 10), (1000, 3 / 10), (100, 1 / 5)]
      else [(0, 1 / 20), (200, 1 / 4)]) (fun i => if i = 0 then 100 else 0)
    (fun i => if i = 0 then 20 else 0) := by
  intro i j hi
  match i with
  | 0 => cases hi; exact ⟨sample_sane, rfl, rfl⟩
  | 1 => cases hi; exact ⟨other_sane, rfl, rfl⟩
  | n + 2 => simp at hi

example : ∃ va vb va' vb' u1 u2 u3 u4,
    multiCall [base sampleTax, base otherTax] (.money 100) 2000 [(0, .scalar 100)] [(0, .scalar 20)]
      = .ok (va, u1) ∧
    multiCall [base sampleTax, base otherTax] (.money 1900) 2000 [(0, .scalar 100)] [(0, .scalar 20)]
      = .ok (vb, u2) ∧
    multiCall [base sampleTax, base otherTax] (.money 900) 2000 [(0, .scalar 100)] [(0, .scalar 20)]
      = .ok (va', u3) ∧
    multiCall [base sampleTax, base otherTax] (.money 1100) 2000 [(0, .scalar 100)] [(0, .scalar 20)]
      = .ok (vb', u4) ∧ va' + vb' ≤ va + vb := by
  obtain ⟨va, u1, e1, -⟩ := C106_planning_defined sample_allSane 100
  obtain ⟨vb, u2, e2, -⟩ := C106_planning_defined sample_allSane 1900
  obtain ⟨va', u3, e3, -⟩ := C106_planning_defined sample_allSane 900
  obtain ⟨vb', u4, e4, -⟩ := C106_planning_defined sample_allSane 1100
  refine ⟨va, vb, va', vb', u1, u2, u3, u4, e1, e2, e3, e4,
    C106_planning_evening_out sample_allSane ?_ (by norm_num) (by norm_num) (by norm_num) e1 e2 e3 e4⟩
  intro i _
  by_cases h : i = 0
  · simp only [h, if_true]; exact sample_progressive
  · simp only [h, if_false]; unfold Progressive; decide +kernel

end Forecaster.Tax
