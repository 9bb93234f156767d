import Verif.Lemmas.Units
import Verif.Model.Tax
import Verif.Model.Expenses

/-!
# Taxes and living expenses in another unit of money
-/

namespace Forecaster.Units

open Forecaster Forecaster.Inflation Forecaster.Tax

variable {K : Type} [Field K] [LinearOrder K] [IsStrictOrderedRing K] {c : K}

/-- A table from amounts to rates. -/
def thresholds (c : K) (d : Dict K K) : Dict K K := d.map fun e => (c * e.1, e.2)

/-- A table from amounts to amounts. -/
def amounts (c : K) (d : Dict K K) : Dict K K := d.map fun e => (c * e.1, c * e.2)

/-- A tax: its thresholds and personal deductions are amounts, its rates are not. -/
def tax (c : K) (t : Tax K) : Tax K :=
  { t with
    brackets := Dict.mapVals (thresholds c) t.brackets
    accum := Dict.mapVals (amounts c) t.accum
    personal := dict c t.personal }

/-- A person's taxable income, deductions and credits. -/
def payer (c : K) (p : Payer K) : Payer K :=
  { p with
    taxableIncome := fun y => (p.taxableIncome y).map (c * ·)
    taxDeduction := fun y => (p.taxDeduction y).map (c * ·)
    taxCredit := fun y => (p.taxCredit y).map (c * ·) }

/-- Two jurisdictions that differ only in the unit of money. -/
structure SameJur (c : K) (j j' : Jur K) : Prop where
  tax : j'.tax = tax c j.tax
  credit : ∀ t p y, j'.credit (Units.tax c t) (payer c p) y = (j.credit t p y).map (c * ·)

/-- Whose tax is asked for. -/
def income (c : K) : Income K → Income K
  | .money x => .money (c * x)
  | .person p => .person (payer c p)
  | .people ps => .people (ps.map (payer c))

/-- A deduction or a credit. -/
def amount (c : K) : Amount K → Amount K
  | .scalar x => .scalar (c * x)
  | .perPerson d => .perPerson (dict c d)

/-! ## Tables -/

theorem nearestYear_mapVals {V V' : Type} (f : V → V') (d : Dict ℤ V) (y : ℤ) :
    nearestYear (Dict.mapVals f d) y = nearestYear d y := by
  have h : Dict.keys (Dict.mapVals f d) = Dict.keys d := by
    unfold Dict.keys Dict.mapVals
    rw [List.map_map]
    rfl
  have he : (Dict.mapVals f d).isEmpty = d.isEmpty := by cases d <;> rfl
  unfold nearestYear
  rw [h, he]

/-- A value of a `{year: val}` table. -/
def yearVal (c : K) : Val K → Val K
  | .scalar x => .scalar (c * x)
  | .dict d => .dict (thresholds c d)
  | .list l => .list l

theorem extend_yearVal (d : Dict ℤ (Val K)) (adj : Adjust K) (y : ℤ) :
    extendInflationAdjusted (Dict.mapVals (yearVal c) d) adj y =
      (extendInflationAdjusted d adj y).map (yearVal c) := by
  unfold extendInflationAdjusted
  simp only [nearestYear_mapVals, Dict.get?_mapVals]
  cases Dict.get? d y with
  | some v => rfl
  | none =>
    simp only [Option.map_none]
    cases nearestYear d y with
    | none => rfl
    | some b =>
      simp only
      by_cases hb : b ≠ y
      · simp only [hb, ne_eq, not_false_eq_true, if_true]
        cases Dict.get? d b with
        | none => rfl
        | some v =>
          simp only [Option.map_some]
          cases adj y b with
          | error e => rfl
          | ok k =>
            simp only [ok_bind, Except.map, Except.ok.injEq]
            cases v with
            | scalar x => simp only [yearVal, Val.scale, mul_assoc]
            | dict d =>
              simp only [yearVal, Val.scale, thresholds, Dict.mapVals, List.map_map]
              rfl
            | list l => rfl
      · simp only [hb, if_false, Except.map]

theorem extend_scalar (d : Dict ℤ K) (adj : Adjust K) (y : ℤ) :
    extendInflationAdjusted (Dict.mapVals Val.scalar (dict c d)) adj y =
      (extendInflationAdjusted (Dict.mapVals Val.scalar d) adj y).map (yearVal c) := by
  rw [← extend_yearVal]
  congr 1
  unfold dict Dict.mapVals
  simp only [List.map_map]
  rfl

theorem extend_dict (d : Dict ℤ (Dict K K)) (adj : Adjust K) (y : ℤ) :
    extendInflationAdjusted (Dict.mapVals Val.dict (Dict.mapVals (thresholds c) d)) adj y =
      (extendInflationAdjusted (Dict.mapVals Val.dict d) adj y).map (yearVal c) := by
  rw [← extend_yearVal]
  congr 1
  unfold Dict.mapVals
  simp only [List.map_map]
  rfl

/-- A table whose keys are amounts. -/
theorem get?_keyed {V V' : Type} (hc : 0 < c) (f : V → V') (d : Dict K V) (k : K) :
    Dict.get? (d.map fun e => (c * e.1, f e.2)) (c * k) = (Dict.get? d k).map f := by
  induction d with
  | nil => rfl
  | cons e d ih =>
    obtain ⟨k', v⟩ := e
    simp only [List.map_cons, Dict.get?_cons]
    have : c * k' = c * k ↔ k' = k := by simp [hc.ne']
    by_cases h : k' = k
    · simp only [h, if_true, Option.map_some]
    · simp only [this, h, if_false, ih]

theorem set_keyed {V V' : Type} (hc : 0 < c) (f : V → V') (d : Dict K V) (k : K) (v : V) :
    Dict.set (d.map fun e => (c * e.1, f e.2)) (c * k) (f v) =
      (Dict.set d k v).map fun e => (c * e.1, f e.2) := by
  induction d with
  | nil => rfl
  | cons e d ih =>
    obtain ⟨k', v'⟩ := e
    simp only [List.map_cons, Dict.set]
    have : c * k' = c * k ↔ k' = k := by simp [hc.ne']
    by_cases h : k' = k
    · simp only [h, if_true, List.map_cons]
    · simp only [this, h, if_false, List.map_cons, ih]

theorem keys_thresholds (d : Dict K K) : Dict.keys (thresholds c d) = (Dict.keys d).map (c * ·) := by
  unfold thresholds Dict.keys
  simp only [List.map_map]
  rfl

theorem val_thresholds (hc : 0 < c) (d : Dict K K) (k : K) :
    Dict.val (thresholds c d) (c * k) = Dict.val d k := by
  unfold Dict.val thresholds
  have := get?_keyed hc (fun v : K => v) d k
  rw [this]
  cases Dict.get? d k <;> rfl

theorem val_amounts (hc : 0 < c) (d : Dict K K) (k : K) :
    Dict.val (amounts c d) (c * k) = c * Dict.val d k := by
  unfold Dict.val amounts
  have := get?_keyed hc (c * ·) d k
  rw [this]
  cases Dict.get? d k with
  | none => exact (mul_zero c).symm
  | some v => rfl

theorem orderedInsert_mul (hc : 0 < c) (x : K) (l : List K) :
    (l.map (c * ·)).orderedInsert (· ≤ ·) (c * x) = (l.orderedInsert (· ≤ ·) x).map (c * ·) := by
  induction l with
  | nil => rfl
  | cons y l ih =>
    simp only [List.map_cons, List.orderedInsert_cons]
    have : c * x ≤ c * y ↔ x ≤ y := mul_le_mul_iff_right₀ hc
    by_cases h : x ≤ y
    · simp only [this, h, if_true, List.map_cons]
    · simp only [this, h, if_false, List.map_cons, ih]

theorem insertionSort_mul (hc : 0 < c) (l : List K) :
    (l.map (c * ·)).insertionSort (· ≤ ·) = (l.insertionSort (· ≤ ·)).map (c * ·) := by
  induction l with
  | nil => rfl
  | cons x l ih => rw [List.map_cons, List.insertionSort_cons, ih, orderedInsert_mul hc, List.insertionSort_cons]

theorem max?_mul (hc : 0 < c) (l : List K) : (l.map (c * ·)).max? = l.max?.map (c * ·) := by
  cases l with
  | nil => rfl
  | cons x l =>
    rw [List.map_cons, List.max?_cons', List.max?_cons']
    simp only [Option.map_some, Option.some.injEq]
    induction l generalizing x with
    | nil => rfl
    | cons y l ih =>
      simp only [List.map_cons, List.foldl_cons]
      rw [← mul_max_of_nonneg _ _ hc.le, ih]

theorem accumTable_thresholds (hc : 0 < c) (B : Dict K K) :
    accumTable (thresholds c B) = (accumTable B).map (amounts c) := by
  unfold accumTable
  rw [keys_thresholds, insertionSort_mul hc]
  cases (Dict.keys B).insertionSort (· ≤ ·) with
  | nil => rfl
  | cons prev rest =>
    simp only [List.map_cons, Except.map, Except.ok.injEq]
    have key : ∀ (l : List K) (s : K × Dict K K),
        (l.map (c * ·)).foldl (accumStep (thresholds c B)) (c * s.1, amounts c s.2) =
          (c * (l.foldl (accumStep B) s).1, amounts c (l.foldl (accumStep B) s).2) := by
      intro l
      induction l with
      | nil => intro s; rfl
      | cons b l ih =>
        intro s
        simp only [List.map_cons, List.foldl_cons]
        rw [← ih]
        congr 1
        unfold accumStep
        simp only [val_thresholds hc, val_amounts hc, Prod.mk.injEq, true_and]
        have : (c * b - c * s.1) * Dict.val B s.1 + c * Dict.val s.2 s.1 =
            c * ((b - s.1) * Dict.val B s.1 + Dict.val s.2 s.1) := by ring
        rw [this]
        exact set_keyed hc (c * ·) s.2 b _
    have h := congrArg Prod.snd (key rest (prev, [(prev, 0)]))
    have h0 : amounts c [(prev, (0 : K))] = [(c * prev, 0)] := by simp [amounts]
    rw [h0] at h
    exact h

theorem scaleKeys_thresholds (hc : 0 < c) (k : K) (B : Dict K K) :
    scaleKeys k (thresholds c B) = thresholds c (scaleKeys k B) := by
  have key : ∀ (B acc : Dict K K),
      (thresholds c B).foldl (fun d kv => Dict.set d (kv.1 * k) kv.2) (thresholds c acc) =
        thresholds c (B.foldl (fun d kv => Dict.set d (kv.1 * k) kv.2) acc) := by
    intro B
    induction B with
    | nil => intro acc; rfl
    | cons e B ih =>
      intro acc
      have h0 : thresholds c (e :: B) = (c * e.1, e.2) :: thresholds c B := rfl
      rw [h0, List.foldl_cons, List.foldl_cons, ← ih]
      congr 1
      simp only [mul_assoc]
      exact set_keyed hc (fun v : K => v) acc (e.1 * k) e.2
  exact key B []

/-! ## A tax -/

theorem addBrackets_tax (hc : 0 < c) (t : Tax K) (B : Dict K K) (y : ℤ) :
    addBrackets (tax c t) (thresholds c B) y = (addBrackets t B y).map (tax c) := by
  unfold addBrackets
  rw [accumTable_thresholds hc]
  cases accumTable B with
  | error e => rfl
  | ok a =>
    simp only [Except.map, ok_bind, Except.ok.injEq]
    unfold tax
    simp only [set_mapVals]

theorem init_tax (hc : 0 < c) (brackets : Dict ℤ (Dict K K)) (personal creditRates : Dict ℤ K)
    (adj : Adjust K) :
    Tax.init (Dict.mapVals (thresholds c) brackets) (dict c personal) creditRates adj =
      (Tax.init brackets personal creditRates adj).map (tax c) := by
  unfold Tax.init
  have h0 : (⟨[], [], [], [], adj⟩ : Tax K) = tax c ⟨[], [], [], [], adj⟩ := rfl
  have h1 : (Dict.mapVals (thresholds c) brackets).foldlM
      (fun (t : Tax K) kv => addBrackets t kv.2 kv.1) ⟨[], [], [], [], adj⟩ =
      (brackets.foldlM (fun (t : Tax K) kv => addBrackets t kv.2 kv.1) ⟨[], [], [], [], adj⟩).map
        (tax c) := by
    conv_lhs => rw [h0]
    exact foldlM_map' (k := fun e : ℤ × Dict K K => (e.1, thresholds c e.2)) brackets
      (fun t e _ => addBrackets_tax hc t e.2 e.1) _
  rw [h1]
  cases brackets.foldlM (fun (t : Tax K) kv => addBrackets t kv.2 kv.1) ⟨[], [], [], [], adj⟩ with
  | error e => rfl
  | ok t =>
    simp only [Except.map, ok_bind]
    have h2 : orDefault (dict c personal) (tax c t).brackets 0 =
        (orDefault personal t.brackets 0).map (dict c) := by
      cases personal with
      | cons e l => rfl
      | nil =>
        simp only [orDefault, dict_nil]
        have : Dict.keys (tax c t).brackets = Dict.keys t.brackets := by
          show Dict.keys (Dict.mapVals _ _) = _
          unfold Dict.keys Dict.mapVals
          rw [List.map_map]
          rfl
        rw [this]
        cases (Dict.keys t.brackets).min? with
        | none => rfl
        | some y => simp [Except.map]
    have h3 : orDefault creditRates (tax c t).brackets 1 = orDefault creditRates t.brackets 1 := by
      cases creditRates with
      | cons e l => rfl
      | nil =>
        simp only [orDefault]
        have : Dict.keys (tax c t).brackets = Dict.keys t.brackets := by
          show Dict.keys (Dict.mapVals _ _) = _
          unfold Dict.keys Dict.mapVals
          rw [List.map_map]
          rfl
        rw [this]
    rw [h2, h3]
    cases orDefault personal t.brackets 0 with
    | error e => rfl
    | ok pd =>
      simp only [Except.map, ok_bind]
      cases orDefault creditRates t.brackets 1 <;> rfl

theorem taxBrackets_tax (hc : 0 < c) (t : Tax K) (y : ℤ) :
    taxBrackets (tax c t) y = (taxBrackets t y).map fun r => (thresholds c r.1, tax c r.2) := by
  unfold taxBrackets
  have hb : (tax c t).brackets = Dict.mapVals (thresholds c) t.brackets := rfl
  have ha : (tax c t).adjust = t.adjust := rfl
  simp only [hb, ha, Dict.get?_mapVals, nearestYear_mapVals]
  cases Dict.get? t.brackets y with
  | some B => rfl
  | none =>
    simp only [Option.map_none]
    cases nearestYear t.brackets y with
    | none => rfl
    | some b =>
      simp only
      cases Dict.get? t.brackets b with
      | none => rfl
      | some B =>
        simp only [Option.map_some]
        cases t.adjust y b with
        | error e => rfl
        | ok k =>
          simp only [ok_bind, scaleKeys_thresholds hc, addBrackets_tax hc]
          cases addBrackets t (scaleKeys k B) y <;> rfl

theorem accum_tax (hc : 0 < c) (t : Tax K) (y : ℤ) :
    Tax.accum (tax c t) y = (Tax.accum t y).map fun r => (amounts c r.1, tax c r.2) := by
  unfold Tax.accum
  have hb : (tax c t).brackets = Dict.mapVals (thresholds c) t.brackets := rfl
  have hx : ∀ t : Tax K, (tax c t).accum = Dict.mapVals (amounts c) t.accum := fun _ => rfl
  have ha : (tax c t).adjust = t.adjust := rfl
  simp only [hb, hx, ha, Dict.get?_mapVals, extend_dict]
  cases Dict.get? t.accum y with
  | some a => rfl
  | none =>
    simp only [Option.map_none]
    cases extendInflationAdjusted (Dict.mapVals Val.dict t.brackets) t.adjust y with
    | error e => rfl
    | ok v =>
      simp only [Except.map, ok_bind]
      cases v with
      | scalar x => rfl
      | list l => rfl
      | dict B =>
        simp only [yearVal, addBrackets_tax hc]
        cases addBrackets t B y with
        | error e => rfl
        | ok t' =>
          simp only [Except.map, ok_bind, hx, Dict.get?_mapVals]
          cases Dict.get? t'.accum y <;> rfl

theorem personalDeduction_tax (t : Tax K) (y : ℤ) :
    personalDeduction (tax c t) y = (personalDeduction t y).map (c * ·) := by
  unfold personalDeduction
  have hb : (tax c t).personal = dict c t.personal := rfl
  have ha : (tax c t).adjust = t.adjust := rfl
  rw [hb, ha, extend_scalar]
  cases extendInflationAdjusted (Dict.mapVals Val.scalar t.personal) t.adjust y with
  | error e => rfl
  | ok v => cases v <;> rfl

theorem pickBracket_thresholds (hc : 0 < c) (B : Dict K K) (x : K) :
    pickBracket (thresholds c B) (c * x) = (pickBracket B x).map (c * ·) := by
  unfold pickBracket
  rw [keys_thresholds]
  have hf : ((Dict.keys B).map (c * ·)).filter (fun b => decide (b < c * x)) =
      ((Dict.keys B).filter fun b => decide (b < x)).map (c * ·) := by
    induction Dict.keys B with
    | nil => rfl
    | cons y l ih =>
      simp only [List.map_cons, List.filter_cons, ih]
      have : c * y < c * x ↔ y < x := mul_lt_mul_iff_right₀ hc
      by_cases h : y < x
      · simp only [this, h, decide_true, if_true, List.map_cons]
      · simp only [this, h, decide_false, Bool.false_eq_true, if_false]
  rw [hf, max?_mul hc, min?_mul hc]
  cases ((Dict.keys B).filter fun b => decide (b < x)).max? with
  | some b => rfl
  | none =>
    simp only [Option.map_none]
    cases (Dict.keys B).min? <;> rfl

theorem marginalBracket_tax (hc : 0 < c) (t : Tax K) (x : K) (y : ℤ) :
    marginalBracket (tax c t) (c * x) y = (marginalBracket t x y).map fun r => (c * r.1, tax c r.2) := by
  unfold marginalBracket
  rw [taxBrackets_tax hc]
  cases taxBrackets t y with
  | error e => rfl
  | ok r =>
    obtain ⟨B, t'⟩ := r
    simp only [Except.map, ok_bind, pickBracket_thresholds hc]
    cases pickBracket B x <;> rfl

theorem getItem_thresholds (hc : 0 < c) (B : Dict K K) (k : K) :
    Tax.getItem (thresholds c B) (c * k) = Tax.getItem B k := by
  unfold Tax.getItem thresholds
  have := get?_keyed hc (fun v : K => v) B k
  rw [this]
  cases Dict.get? B k <;> rfl

theorem getItem_amounts (hc : 0 < c) (B : Dict K K) (k : K) :
    Tax.getItem (amounts c B) (c * k) = (Tax.getItem B k).map (c * ·) := by
  unfold Tax.getItem amounts
  have := get?_keyed hc (c * ·) B k
  rw [this]
  cases Dict.get? B k <;> rfl

theorem marginalRate_tax (hc : 0 < c) (t : Tax K) (x : K) (y : ℤ) :
    marginalRate (tax c t) (c * x) y = (marginalRate t x y).map fun r => (r.1, tax c r.2) := by
  unfold marginalRate
  rw [taxBrackets_tax hc]
  cases taxBrackets t y with
  | error e => rfl
  | ok r =>
    obtain ⟨B, t'⟩ := r
    simp only [Except.map, ok_bind, marginalBracket_tax hc]
    cases marginalBracket t' x y with
    | error e => rfl
    | ok r =>
      obtain ⟨b, t''⟩ := r
      simp only [Except.map, ok_bind, getItem_thresholds hc]
      cases Tax.getItem B b <;> rfl

theorem taxMoney_tax (hc : 0 < c) (t : Tax K) (x : K) (y : ℤ) (d k : K) :
    taxMoney (tax c t) (c * x) y (c * d) (c * k) =
      (taxMoney t x y d k).map fun r => (c * r.1, tax c r.2) := by
  unfold taxMoney
  simp only [← mul_sub]
  rw [taxBrackets_tax hc]
  cases taxBrackets t y with
  | error e => rfl
  | ok r =>
    obtain ⟨B, t1⟩ := r
    simp only [Except.map, ok_bind, marginalBracket_tax hc]
    cases marginalBracket t1 (x - d) y with
    | error e => rfl
    | ok r =>
      obtain ⟨b, t2⟩ := r
      simp only [Except.map, ok_bind, getItem_thresholds hc]
      cases Tax.getItem B b with
      | error e => rfl
      | ok rate =>
        simp only [ok_bind, accum_tax hc]
        cases Tax.accum t2 y with
        | error e => rfl
        | ok r =>
          obtain ⟨a, t3⟩ := r
          simp only [Except.map, ok_bind, getItem_amounts hc]
          cases Tax.getItem a b with
          | error e => rfl
          | ok acc =>
            simp only [Except.map, ok_bind]
            have hcr : creditRate (tax c t3) y = creditRate t3 y := rfl
            rw [hcr]
            cases creditRate t3 y with
            | error e => rfl
            | ok cr =>
              simp only [ok_bind, Except.ok.injEq, Prod.mk.injEq, and_true]
              rw [mul_max_of_nonneg _ _ hc.le, mul_zero]
              congr 1
              ring

theorem hist_map (h : ℤ → Option K) (y : ℤ) :
    hist (fun y => (h y).map (c * ·)) y = (hist h y).map (c * ·) := by
  unfold hist
  simp only
  cases h y <;> rfl

theorem deductionFor_tax (t : Tax K) (p : Payer K) (y : ℤ) :
    deductionFor (tax c t) (payer c p) y = (deductionFor t p y).map (c * ·) := by
  unfold deductionFor
  have : (payer c p).taxDeduction = fun y => (p.taxDeduction y).map (c * ·) := rfl
  rw [personalDeduction_tax, this, hist_map]
  cases personalDeduction t y with
  | error e => rfl
  | ok d =>
    cases hist p.taxDeduction y with
    | error e => rfl
    | ok o => simp [Except.map, mul_add]

/-! ## Jurisdictions -/

/-- A jurisdiction with its tax in another unit. -/
def jur (c : K) (j' j : Jur K) : Jur K := { j' with tax := tax c j.tax }

variable {j j' : Jur K}

theorem SameJur.jur (h : SameJur c j j') : jur c j' j = j' := by
  unfold Units.jur
  rw [← h.tax]

theorem SameJur.with (h : SameJur c j j') (t : Tax K) :
    SameJur c { j with tax := t } { j' with tax := Units.tax c t } :=
  ⟨rfl, h.credit⟩

/-- What a jurisdiction answers. -/
def ans (c : K) (j' : Jur K) (r : K × Jur K) : K × Jur K := (c * r.1, jur c j' r.2)

theorem taxPerson_jur (hc : 0 < c) (h : SameJur c j j') (p : Payer K) (y : ℤ) (d k : K) :
    taxPerson j' (payer c p) y (c * d) (c * k) = (taxPerson j p y d k).map (ans c j') := by
  unfold taxPerson
  have h1 : (payer c p).taxDeduction = fun y => (p.taxDeduction y).map (c * ·) := rfl
  have h2 : (payer c p).taxableIncome = fun y => (p.taxableIncome y).map (c * ·) := rfl
  have h3 : (payer c p).taxCredit = fun y => (p.taxCredit y).map (c * ·) := rfl
  rw [h1, h2, h3, hist_map, hist_map, hist_map, h.tax, deductionFor_tax, h.credit]
  cases hist p.taxableIncome y with
  | error e => rfl
  | ok x =>
    cases hist p.taxDeduction y with
    | error e => rfl
    | ok d1 =>
      cases deductionFor j.tax p y with
      | error e => rfl
      | ok d2 =>
        cases hist p.taxCredit y with
        | error e => rfl
        | ok c1 =>
          cases j.credit j.tax p y with
          | error e => rfl
          | ok c2 =>
            simp only [Except.map, ok_bind, ← mul_add, taxMoney_tax hc]
            cases taxMoney j.tax x y (d1 + d2 + d) (c1 + c2 + k) <;> rfl

theorem taxPerson_credit {r : K × Jur K} {p : Payer K} {y : ℤ} {d k : K}
    (hr : taxPerson j p y d k = .ok r) : r.2.credit = j.credit := by
  unfold taxPerson at hr
  cases h1 : hist p.taxableIncome y with
  | error e => rw [h1] at hr; cases hr
  | ok x =>
    cases h2 : hist p.taxDeduction y with
    | error e => rw [h1, h2] at hr; cases hr
    | ok d1 =>
      cases h3 : deductionFor j.tax p y with
      | error e => rw [h1, h2, h3] at hr; cases hr
      | ok d2 =>
        cases h4 : hist p.taxCredit y with
        | error e => rw [h1, h2, h3, h4] at hr; cases hr
        | ok c1 =>
          cases h5 : j.credit j.tax p y with
          | error e => rw [h1, h2, h3, h4, h5] at hr; cases hr
          | ok c2 =>
            cases h6 : taxMoney j.tax x y (d1 + d2 + d) (c1 + c2 + k) with
            | error e => rw [h1, h2, h3, h4, h5] at hr; simp only [ok_bind, h6] at hr; cases hr
            | ok t =>
              rw [h1, h2, h3, h4, h5] at hr
              simp only [ok_bind, h6] at hr
              cases hr
              rfl

theorem SameJur.later (h : SameJur c j j') {j1 : Jur K} (h1 : j1.credit = j.credit) :
    SameJur c j1 (Units.jur c j' j1) := by
  refine ⟨rfl, ?_⟩
  rw [h1]
  exact h.credit

theorem taxOne_jur (hc : 0 < c) (h : SameJur c j j') (p : Payer K) (y : ℤ) (d k : Dict ℕ K) :
    taxOne j' (payer c p) y (dict c d) (dict c k) = (taxOne j p y d k).map (ans c j') := by
  unfold taxOne
  have : (payer c p).id = p.id := rfl
  rw [this, val_dict, val_dict, taxPerson_jur hc h]

theorem taxSpouses_aux (hc : 0 < c) (h : SameJur c j j') (l : List (Payer K)) (y : ℤ) (d k : Dict ℕ K) :
    ∀ (z : K) (j1 : Jur K), j1.credit = j.credit →
      ((l.map (payer c)).foldlM (fun (acc : K × Jur K) p => do
        let (x, j) ← taxOne acc.2 p y (dict c d) (dict c k)
        Except.ok (acc.1 + x, j)) (ans c j' (z, j1)) =
      (l.foldlM (fun (acc : K × Jur K) p => do
        let (x, j) ← taxOne acc.2 p y d k
        Except.ok (acc.1 + x, j)) (z, j1) : Except PyErr (K × Jur K)).map (ans c j')) ∧
      ∀ r, (l.foldlM (fun (acc : K × Jur K) p => do
        let (x, j) ← taxOne acc.2 p y d k
        Except.ok (acc.1 + x, j)) (z, j1) : Except PyErr (K × Jur K)) = .ok r →
          r.2.credit = j.credit := by
  induction l with
  | nil =>
    intro z j1 h1
    refine ⟨rfl, fun r hr => ?_⟩
    cases hr
    exact h1
  | cons p l ih =>
    intro z j1 h1
    have hone := taxOne_jur hc (h.later h1) p y d k
    have hcr : ∀ r, taxOne j1 p y d k = .ok r → r.2.credit = j1.credit := fun r hr => taxPerson_credit hr
    rw [List.map_cons, List.foldlM_cons, List.foldlM_cons]
    have h0 : (ans c j' (z, j1)).2 = Units.jur c j' j1 := rfl
    have h0' : (ans c j' (z, j1)).1 = c * z := rfl
    simp only [h0, h0', hone]
    cases hx : taxOne j1 p y d k with
    | error e => exact ⟨rfl, fun r hr => by cases hr⟩
    | ok r =>
      obtain ⟨x, j2⟩ := r
      have h2 : j2.credit = j.credit := (hcr _ hx).trans h1
      have := ih (z + x) j2 h2
      simp only [Except.map, ok_bind]
      have h3 : ((c * z + (ans c (Units.jur c j' j1) (x, j2)).1,
          (ans c (Units.jur c j' j1) (x, j2)).2) : K × Jur K) = ans c j' (z + x, j2) := by
        unfold ans
        simp only [mul_add]
        rfl
      rw [show (ans c (Units.jur c j' j1) (x, j2)) = (c * x, Units.jur c j' j2) from rfl]
      simp only [ok_bind]
      rw [show ((c * z + c * x, Units.jur c j' j2) : K × Jur K) = ans c j' (z + x, j2) from h3]
      exact this

theorem taxSpouses_jur (hc : 0 < c) (h : SameJur c j j') (l : List (Payer K)) (y : ℤ) (d k : Dict ℕ K) :
    taxSpouses j' (l.map (payer c)) y (dict c d) (dict c k) = (taxSpouses j l y d k).map (ans c j') ∧
      ∀ r, taxSpouses j l y d k = .ok r → r.2.credit = j.credit := by
  have := taxSpouses_aux hc h l y d k 0 j rfl
  have h0 : ans c j' ((0 : K), j) = (0, j') := by
    unfold ans
    rw [h.jur, mul_zero]
  rw [h0] at this
  exact this

theorem taxPeopleAux_jur (hc : 0 < c) (y : ℤ) (d k : Dict ℕ K) (n : ℕ) :
    ∀ (j j' : Jur K) (l : List (Payer K)), SameJur c j j' →
      taxPeopleAux n j' (l.map (payer c)) y (dict c d) (dict c k) =
        (taxPeopleAux n j l y d k).map (ans c j') ∧
      ∀ r, taxPeopleAux n j l y d k = .ok r → r.2.credit = j.credit := by
  induction n with
  | zero =>
    intro j j' l h
    cases l with
    | nil =>
      refine ⟨?_, fun r hr => ?_⟩
      · simp only [List.map_nil, taxPeopleAux, Except.map, Except.ok.injEq]
        unfold ans
        rw [h.jur, mul_zero]
      · simp only [taxPeopleAux] at hr
        cases hr
        rfl
    | cons p l =>
      refine ⟨rfl, fun r hr => ?_⟩
      simp only [taxPeopleAux] at hr
      cases hr
  | succ n ih =>
    intro j j' l h
    cases l with
    | nil =>
      refine ⟨?_, fun r hr => ?_⟩
      · simp only [List.map_nil, taxPeopleAux, Except.map, Except.ok.injEq]
        unfold ans
        rw [h.jur, mul_zero]
      · simp only [taxPeopleAux] at hr
        cases hr
        rfl
    | cons p ps =>
      have hfind : ((payer c p).spouse.bind fun s =>
          ((p :: ps).map (payer c)).find? fun q => q.id == s) =
          (p.spouse.bind fun s => (p :: ps).find? fun q => q.id == s).map (payer c) := by
        show (p.spouse.bind _) = _
        cases p.spouse with
        | none => rfl
        | some s =>
          simp only [Option.bind_some, List.find?_map]
          rfl
      have hfilter : ∀ f : ℕ → Bool, ((p :: ps).map (payer c)).filter (fun r => f r.id) =
          ((p :: ps).filter fun r => f r.id).map (payer c) := by
        intro f
        rw [List.filter_map]
        rfl
      have hsame : ∀ {j1 : Jur K}, j1.credit = j.credit → SameJur c j1 (Units.jur c j' j1) :=
        fun h1 => h.later h1
      have hf1 := hfilter fun i => i != p.id
      have hid : (payer c p).id = p.id := rfl
      rw [List.map_cons] at hfind
      rw [List.map_cons, taxPeopleAux, taxPeopleAux, hfind]
      rw [← List.map_cons]
      cases p.spouse.bind fun s => (p :: ps).find? fun q => q.id == s with
      | none =>
        simp only [Option.map_none]
        rw [taxOne_jur hc h]
        cases hx : taxOne j p y d k with
        | error e => exact ⟨rfl, fun r hr => by cases hr⟩
        | ok r =>
          obtain ⟨x, j1⟩ := r
          have h1 : j1.credit = j.credit := taxPerson_credit hx
          obtain ⟨e1, e2⟩ := ih j1 (Units.jur c j' j1) ((p :: ps).filter fun r => r.id != p.id)
            (hsame h1)
          simp only [Except.map, ok_bind]
          rw [show (ans c j' (x, j1)) = (c * x, Units.jur c j' j1) from rfl]
          simp only [hid, hf1, e1]
          cases hy : taxPeopleAux n j1 ((p :: ps).filter fun r => r.id != p.id) y d k with
          | error e => exact ⟨rfl, fun r hr => by cases hr⟩
          | ok r =>
            obtain ⟨z, j2⟩ := r
            refine ⟨?_, fun r hr => ?_⟩
            · simp only [Except.map, ok_bind, ans, mul_add]
              rfl
            · cases hr
              exact (e2 _ hy).trans h1
      | some q =>
        simp only [Option.map_some]
        have hidq : (payer c q).id = q.id := rfl
        have hpair : (if (payer c q).id = (payer c p).id then [payer c p] else [payer c p, payer c q]) =
            (if q.id = p.id then [p] else [p, q]).map (payer c) := by
          rw [hid, hidq]
          split_ifs <;> rfl
        have hf2 := hfilter fun i => i != p.id && i != q.id
        obtain ⟨s1, s2⟩ := taxSpouses_jur hc h (if q.id = p.id then [p] else [p, q]) y d k
        rw [hpair, s1]
        cases hx : taxSpouses j (if q.id = p.id then [p] else [p, q]) y d k with
        | error e => exact ⟨rfl, fun r hr => by cases hr⟩
        | ok r =>
          obtain ⟨x, j1⟩ := r
          have h1 : j1.credit = j.credit := s2 _ hx
          obtain ⟨e1, e2⟩ := ih j1 (Units.jur c j' j1)
            ((p :: ps).filter fun r => r.id != p.id && r.id != q.id) (hsame h1)
          simp only [Except.map, ok_bind]
          rw [show (ans c j' (x, j1)) = (c * x, Units.jur c j' j1) from rfl]
          simp only [hid, hidq, hf2, e1]
          cases hy : taxPeopleAux n j1 ((p :: ps).filter fun r => r.id != p.id && r.id != q.id) y d k with
          | error e => exact ⟨rfl, fun r hr => by cases hr⟩
          | ok r =>
            obtain ⟨z, j2⟩ := r
            refine ⟨?_, fun r hr => ?_⟩
            · simp only [Except.map, ok_bind, ans, mul_add]
              rfl
            · cases hr
              exact (e2 _ hy).trans h1

theorem asScalar_amount (a : Option (Amount K)) :
    Amount.asScalar (a.map (amount c)) = (Amount.asScalar a).map (c * ·) := by
  cases a with
  | none => simp [Amount.asScalar, Except.map]
  | some a => cases a <;> rfl

theorem asDict_amount (a : Option (Amount K)) :
    Amount.asDict (a.map (amount c)) = (Amount.asDict a).map (dict c) := by
  cases a with
  | none => rfl
  | some a => cases a <;> rfl

theorem call_jur (hc : 0 < c) (h : SameJur c j j') (i : Income K) (y : ℤ) (d k : Option (Amount K)) :
    Tax.call j' (income c i) y (d.map (amount c)) (k.map (amount c)) =
      (Tax.call j i y d k).map (ans c j') := by
  cases i with
  | people ps =>
    cases ps with
    | nil =>
      simp only [Tax.call, income, List.map_nil, Except.map, Except.ok.injEq]
      unfold ans
      rw [h.jur, mul_zero]
    | cons p ps =>
      simp only [Tax.call, income, List.map_cons, asDict_amount]
      cases Amount.asDict d with
      | error e => rfl
      | ok d =>
        cases Amount.asDict k with
        | error e => rfl
        | ok k =>
          simp only [Except.map, ok_bind]
          have := (taxPeopleAux_jur hc y d k (p :: ps).length j j' (p :: ps) h).1
          unfold taxPeople
          rw [List.map_cons] at this
          simp only [List.length_cons, List.length_map] at this ⊢
          exact this
  | person p =>
    simp only [Tax.call, income, asScalar_amount]
    cases Amount.asScalar d with
    | error e => rfl
    | ok d =>
      cases Amount.asScalar k with
      | error e => rfl
      | ok k => exact taxPerson_jur hc h p y d k
  | money x =>
    simp only [Tax.call, income, asScalar_amount]
    cases Amount.asScalar d with
    | error e => rfl
    | ok d =>
      cases Amount.asScalar k with
      | error e => rfl
      | ok k =>
        simp only [Except.map, ok_bind, h.tax, taxMoney_tax hc]
        cases taxMoney j.tax x y d k <;> rfl

/-! ## Canada -/

/-- The constants of a Canadian jurisdiction and what it looks at. -/
def canEnv (c : K) (E : CanEnv K) : CanEnv K :=
  { E with
    pensionCap := dict c E.pensionCap
    spousalAmount := dict c E.spousalAmount
    rrspOutflows := fun i => (E.rrspOutflows i).map (c * ·)
    payer := fun i => (E.payer i).map (payer c)
    income := fun i => c * E.income i }

theorem sum_mul (l : List K) : (l.map (c * ·)).sum = c * l.sum := by
  induction l with
  | nil => simp
  | cons x l ih => simp only [List.map_cons, List.sum_cons, ih, mul_add]

theorem pensionCredit_dict (hc : 0 < c) (cap : Dict ℤ K) (adj : Adjust K) (l : List K) (y : ℤ) :
    pensionCredit (dict c cap) adj (l.map (c * ·)) y = (pensionCredit cap adj l y).map (c * ·) := by
  unfold pensionCredit
  rw [extend_scalar]
  cases extendInflationAdjusted (Dict.mapVals Val.scalar cap) adj y with
  | error e => rfl
  | ok v =>
    cases v with
    | scalar m =>
      simp only [Except.map, ok_bind, yearVal, sum_mul, abs_mul, abs_of_pos hc]
      rw [mul_min_of_nonneg _ _ hc.le]
    | dict d => rfl
    | list l => rfl

theorem spousalCredit_tax (hc : 0 < c) (t : Tax K) (amount : Dict ℤ K) (p : Payer K)
    (s : Option (Payer K)) (x x' : K) (lt : Bool) (y : ℤ) :
    spousalCredit (tax c t) (dict c amount) (payer c p) (s.map (payer c)) (c * x) (c * x') lt y =
      (spousalCredit t amount p s x x' lt y).map (c * ·) := by
  unfold spousalCredit
  cases s with
  | none => simp [Except.map]
  | some s =>
    have ha : (tax c t).adjust = t.adjust := rfl
    simp only [Option.map_some, ha, extend_scalar]
    cases extendInflationAdjusted (Dict.mapVals Val.scalar amount) t.adjust y with
    | error e => rfl
    | ok v =>
      cases v with
      | dict d => rfl
      | list l => rfl
      | scalar m =>
        simp only [Except.map, ok_bind, yearVal, deductionFor_tax]
        cases deductionFor t s y with
        | error e => rfl
        | ok ds =>
          cases deductionFor t p y with
          | error e => rfl
          | ok dp =>
            simp only [Except.map, ok_bind, ← mul_sub]
            have h1 : c * (x - dp) < c * (x' - ds) ↔ x - dp < x' - ds := mul_lt_mul_iff_right₀ hc
            have h2 : c * (x - dp) = c * (x' - ds) ↔ x - dp = x' - ds := by
              constructor
              · exact fun h => mul_left_cancel₀ hc.ne' h
              · exact fun h => by rw [h]
            by_cases e1 : x - dp < x' - ds
            · rw [if_pos e1, if_pos (h1.2 e1)]; simp
            · rw [if_neg e1, if_neg (fun h => e1 (h1.1 h))]
              by_cases e2 : x - dp = x' - ds ∧ lt = true
              · rw [if_pos e2, if_pos ⟨h2.2 e2.1, e2.2⟩]; simp
              · rw [if_neg e2, if_neg (fun h => e2 ⟨h2.1 h.1, h.2⟩)]
                simp only [Except.ok.injEq]
                rw [mul_max_of_nonneg _ _ hc.le, mul_zero]

theorem canada_same (hc : 0 < c) (E : CanEnv K) (t : Tax K) :
    SameJur c (canadaJur E t) (canadaJur (canEnv c E) (tax c t)) := by
  refine ⟨rfl, fun t p y => ?_⟩
  show canadaCredit (canEnv c E) (tax c t) (payer c p) y = (canadaCredit E t p y).map _
  unfold canadaCredit
  have h1 : creditFor (payer c p) y = (creditFor p y).map (c * ·) := by
    unfold creditFor
    exact hist_map p.taxCredit y
  have h2 : pensionCredit (canEnv c E).pensionCap (tax c t).adjust ((canEnv c E).rrspOutflows (payer c p).id) y
      = (pensionCredit E.pensionCap t.adjust (E.rrspOutflows p.id) y).map (c * ·) :=
    pensionCredit_dict hc _ _ _ _
  have h3 : (payer c p).spouse.bind (canEnv c E).payer = (p.spouse.bind E.payer).map (payer c) := by
    show p.spouse.bind (fun i => (E.payer i).map (payer c)) = _
    cases p.spouse <;> rfl
  rw [h1, h2, h3]
  cases creditFor p y with
  | error e => rfl
  | ok a =>
    cases pensionCredit E.pensionCap t.adjust (E.rrspOutflows p.id) y with
    | error e => rfl
    | ok b =>
      simp only [Except.map, ok_bind]
      cases p.spouse.bind E.payer with
      | none => simp [mul_add]
      | some s =>
        simp only [Option.map_some]
        have h4 := spousalCredit_tax hc t E.spousalAmount p (some s) (E.income p.id) (E.income s.id)
          (E.idLt p.id s.id) y
        have h5 : spousalCredit (tax c t) (canEnv c E).spousalAmount (payer c p) (some (payer c s))
            ((canEnv c E).income (payer c p).id) ((canEnv c E).income (payer c s).id)
            ((canEnv c E).idLt (payer c p).id (payer c s).id) y = _ := h4
        rw [h5]
        cases spousalCredit t E.spousalAmount p (some s) (E.income p.id) (E.income s.id)
          (E.idLt p.id s.id) y with
        | error e => rfl
        | ok z => simp [Except.map, mul_add]

theorem base_same (t : Tax K) : SameJur c (base t) (base (tax c t)) :=
  ⟨rfl, fun _ p y => hist_map p.taxCredit y⟩

end Forecaster.Units
