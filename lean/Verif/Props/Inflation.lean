import Verif.Lemmas.Dict
import Verif.Model.Inflation
import Mathlib.Tactic.FieldSimp
import Mathlib.Tactic.LinearCombination
import Mathlib.Algebra.Order.Ring.Rat

/-!
# Properties of `utility/inflation.py` (C09, C10) and `scenario.py` (C11)
-/

set_option linter.unusedSectionVars false

namespace Forecaster.Inflation

variable {K : Type} [Field K] [LinearOrder K] [IsStrictOrderedRing K]

/-! ## C09: `nearest_year` -/

/-- **C09.** `nearest_year(vals, y)` is `None` exactly for an empty table; otherwise it
is a year of the table: `y` itself if present, else the greatest earlier year if
there is one, else the least year (all years being later). -/
theorem C09_nearest_year {V : Type} (vals : Dict ℤ V) (y : ℤ) :
    (nearestYear vals y = none ↔ vals = []) ∧
    ∀ k, nearestYear vals y = some k ↔
      k ∈ Dict.keys vals ∧
      (k = y ∨
       (y ∉ Dict.keys vals ∧ k < y ∧ ∀ j ∈ Dict.keys vals, j < y → j ≤ k) ∨
       (y < k ∧ ∀ j ∈ Dict.keys vals, k ≤ j)) := by
  by_cases h0 : vals = []
  · subst h0; simp [nearestYear]
  have he : vals.isEmpty = false := by simpa using h0
  by_cases h1 : y ∈ Dict.keys vals
  · have : nearestYear vals y = some y := by simp [nearestYear, he, h1]
    rw [this]
    refine ⟨by simp [h0], fun k => ?_⟩
    simp only [Option.some.injEq]
    constructor
    · rintro rfl; exact ⟨h1, .inl rfl⟩
    · rintro ⟨hk, h | ⟨h, _⟩ | ⟨h, h'⟩⟩
      · exact h.symm
      · exact absurd h1 h
      · exact absurd (h' y h1) (by omega)
  have hun : nearestYear vals y =
      match ((Dict.keys vals).filter fun k => decide (k < y)).max? with
      | some k => some k
      | none => ((Dict.keys vals).filter fun k => decide (k > y)).min? := by
    simp only [nearestYear, he, h1, if_false, Bool.false_eq_true]
    rfl
  rcases hm : ((Dict.keys vals).filter fun k => decide (k < y)).max? with _ | m
  · rw [hm] at hun
    rw [List.max?_eq_none_iff, List.filter_eq_nil_iff] at hm
    have hall : ∀ j ∈ Dict.keys vals, y < j := by
      intro j hj
      have := hm j hj
      simp only [decide_eq_true_eq, not_lt] at this
      rcases lt_or_eq_of_le this with h | h
      · exact h
      · subst h; exact absurd hj h1
    rw [hun]
    simp only
    constructor
    · rw [List.min?_eq_none_iff, List.filter_eq_nil_iff]
      constructor
      · intro h
        obtain ⟨a, ha⟩ := List.exists_mem_of_ne_nil vals h0
        have := h a.1 (Dict.mem_keys_of_mem ha)
        have := hall a.1 (Dict.mem_keys_of_mem ha)
        simp_all
      · intro h; exact absurd h h0
    · intro k
      rw [List.min?_eq_some_iff]
      simp only [List.mem_filter, decide_eq_true_eq]
      constructor
      · rintro ⟨⟨hk, hky⟩, hmin⟩
        exact ⟨hk, .inr (.inr ⟨hky, fun j hj => hmin j ⟨hj, hall j hj⟩⟩)⟩
      · rintro ⟨hk, h | ⟨_, h, _⟩ | ⟨h, h'⟩⟩
        · subst h; exact absurd hk h1
        · exact absurd (hall k hk) (by omega)
        · exact ⟨⟨hk, h⟩, fun j hj => h' j hj.1⟩
  · rw [hm] at hun
    rw [List.max?_eq_some_iff] at hm
    simp only [List.mem_filter, decide_eq_true_eq] at hm
    rw [hun]
    simp only [reduceCtorEq, Option.some.injEq, h0, true_and]
    intro k
    constructor
    · rintro rfl
      exact ⟨hm.1.1, .inr (.inl ⟨h1, hm.1.2, fun j hj hjy => hm.2 j ⟨hj, hjy⟩⟩)⟩
    · rintro ⟨hk, h | ⟨_, h, h'⟩ | ⟨h, h'⟩⟩
      · subst h; exact absurd hk h1
      · exact le_antisymm (h' m hm.1.1 hm.1.2) (hm.2 k ⟨hk, h⟩)
      · have := h' m hm.1.1; have := hm.1.2; omega

example : nearestYear ([(2000, ()), (2005, ()), (2010, ())] : Dict ℤ Unit) 2007 = some 2005 := by
  decide

/-! ## C10: inflation adjustment functions compose -/

/-- **C10.** The adjustment built from `None` is always 1; the one built from a table of
nonzero factors is 1 from a year to itself, multiplicative along any chain of years and
reciprocal in the reverse direction, defaulting to the table's earliest year; a
callable is used unchanged. -/
theorem C10_adjust_composes (d : Dict ℤ K) (hne : d ≠ [])
    (hnz : ∀ kv ∈ d, kv.2 ≠ 0) :
    (buildInflationAdjust (.none : AdjArg K)).map (fun f => ∀ t b, f t b = .ok 1) = .ok True ∧
    (∀ f, buildInflationAdjust (.callable f : AdjArg K) = .ok f) ∧
    ∃ f, buildInflationAdjust (.dict d) = .ok f ∧
      (∀ t b vt vb, Dict.get? d t = some vt → Dict.get? d b = some vb →
        f t (some b) = .ok (vt / vb)) ∧
      (∀ y ∈ Dict.keys d, f y (some y) = .ok 1) ∧
      (∀ a ∈ Dict.keys d, ∀ b ∈ Dict.keys d, ∀ c ∈ Dict.keys d, ∃ x z,
        f b (some a) = .ok x ∧ f c (some b) = .ok z ∧ f c (some a) = .ok (x * z) ∧
        f a (some b) = .ok x⁻¹) ∧
      (∃ y0 ∈ Dict.keys d, (∀ y ∈ Dict.keys d, y0 ≤ y) ∧ ∀ t, f t none = f t (some y0)) ∧
      (∀ t b, t ∉ Dict.keys d ∨ b ∉ Dict.keys d → f t (some b) = .error .keyError) := by
  refine ⟨by simp [buildInflationAdjust, Except.map], fun f => rfl, ?_⟩
  rcases hm : (Dict.keys d).min? with _ | y0
  · rw [List.min?_eq_none_iff] at hm
    simp [Dict.keys] at hm
    exact absurd hm hne
  refine ⟨fun target base => tableRatio d target (base.getD y0),
    by simp [buildInflationAdjust, hm], ?_, ?_, ?_, ?_, ?_⟩
  · intro t b vt vb ht hb
    have : vb ≠ 0 := hnz _ (Dict.mem_of_get? hb)
    simp [tableRatio, ht, hb, this]
  · intro y hy
    obtain ⟨v, hv⟩ := Dict.mem_keys_iff.1 hy
    have : v ≠ 0 := hnz _ (Dict.mem_of_get? hv)
    simp [tableRatio, hv, this]
  · intro a ha b hb c hc
    obtain ⟨va, ha'⟩ := Dict.mem_keys_iff.1 ha
    obtain ⟨vb, hb'⟩ := Dict.mem_keys_iff.1 hb
    obtain ⟨vc, hc'⟩ := Dict.mem_keys_iff.1 hc
    have na : va ≠ 0 := hnz _ (Dict.mem_of_get? ha')
    have nb : vb ≠ 0 := hnz _ (Dict.mem_of_get? hb')
    refine ⟨vb / va, vc / vb, ?_, ?_, ?_, ?_⟩
    · simp [tableRatio, ha', hb', na]
    · simp [tableRatio, hb', hc', nb]
    · simp only [Option.getD_some, tableRatio, ha', hc', na, if_false]
      congr 1; field_simp
    · simp [tableRatio, ha', hb', nb]
  · rw [List.min?_eq_some_iff] at hm
    exact ⟨y0, hm.1, hm.2, fun t => rfl⟩
  · intro t b h
    simp only [Option.getD_some]
    unfold tableRatio
    rcases h with h | h
    · rw [Dict.get?_eq_none.2 h]
    · rw [Dict.get?_eq_none.2 h]; cases Dict.get? d t <;> rfl

example : ([(2000, 1), (2001, 11/10)] : Dict ℤ ℚ) ≠ [] ∧
    ∀ kv ∈ ([(2000, 1), (2001, 11/10)] : Dict ℤ ℚ), kv.2 ≠ 0 := by decide +kernel

/-- Specification: `w` is `v` with every number in it multiplied by `c` (same kind of value, same
length, same keys). -/
inductive Scaled (c : K) : Val K → Val K → Prop
  | scalar (x : K) : Scaled c (.scalar x) (.scalar (x * c))
  | list (l l' : List K) : l'.length = l.length →
      (∀ (i : ℕ) x, l[i]? = some x → l'[i]? = some (x * c)) → Scaled c (.list l) (.list l')
  | dict (d d' : Dict K K) : Dict.keys d' = Dict.keys d →
      (∀ k x, Dict.get? d k = some x → Dict.get? d' k = some (x * c)) →
      Scaled c (.dict d) (.dict d')

theorem scaled_scale (c : K) (v : Val K) : Scaled c v (v.scale c) := by
  cases v with
  | scalar x => exact .scalar x
  | list l =>
    refine .list _ _ (by simp) fun i x h => ?_
    rw [List.getElem?_map, h]; rfl
  | dict d =>
    refine .dict _ _ (Dict.keys_mapVals _ _) fun k x h => ?_
    rw [Dict.get?_mapVals, h]; rfl

/-- **C10** (extension of tables). A year present in the table is returned as is; a
missing year gets the value of the nearest year scaled by the adjustment from that
year to the missing one; an empty table raises. -/
theorem C10_extend (vals : Dict ℤ (Val K)) (adj : Adjust K) (y : ℤ) :
    (∀ v, Dict.get? vals y = some v → extendInflationAdjusted vals adj y = .ok v) ∧
    (y ∉ Dict.keys vals → vals ≠ [] → ∃ b v, b ≠ y ∧ nearestYear vals y = some b ∧
      Dict.get? vals b = some v ∧
      ∀ c, adj y b = .ok c → ∃ w, extendInflationAdjusted vals adj y = .ok w ∧ Scaled c v w) ∧
    (vals = [] → extendInflationAdjusted vals adj y = .error .keyError) := by
  refine ⟨?_, ?_, ?_⟩
  · intro v h; simp [extendInflationAdjusted, h]
  · intro hy hne
    obtain ⟨h1, h2⟩ := C09_nearest_year vals y
    rcases hb : nearestYear vals y with _ | b
    · exact absurd (h1.1 hb) hne
    · have hmem := ((h2 b).1 hb).1
      have hby : b ≠ y := by rintro rfl; exact hy hmem
      obtain ⟨v, hv⟩ := Dict.mem_keys_iff.1 hmem
      refine ⟨b, v, hby, rfl, hv, ?_⟩
      intro c hc
      exact ⟨v.scale c,
        by simp [extendInflationAdjusted, Dict.get?_eq_none.2 hy, hb, hby, hv, hc],
        scaled_scale c v⟩
  · rintro rfl; rfl

/-! ## C11: Scenario -/

theorem pyRange_self (a : ℤ) : pyRange a a = [] := by simp [pyRange]

theorem pyRange_append {a b c : ℤ} (h1 : a ≤ b) (h2 : b ≤ c) :
    pyRange a c = pyRange a b ++ pyRange b c := by
  unfold pyRange
  have e : (c - a).toNat = (b - a).toNat + (c - b).toNat := by omega
  rw [e, List.range_add, List.map_append, List.map_map]
  congr 1
  apply List.map_congr_left
  intro i _
  simp only [Function.comp_def]
  push_cast
  omega

theorem mem_pyRange {a b y : ℤ} : y ∈ pyRange a b ↔ a ≤ y ∧ y < b := by
  unfold pyRange
  simp only [List.mem_map, List.mem_range]
  constructor
  · rintro ⟨i, hi, rfl⟩; omega
  · rintro ⟨h1, h2⟩; exact ⟨(y - a).toNat, by omega, by omega⟩

/-- the product loop from an arbitrary start value -/
theorem accum_from (r : Rates K) (l : List ℤ) (x : K) :
    l.foldlM (fun accum year => do let rate ← r.get year; .ok (accum * (1 + rate))) x
      = (l.foldlM (fun accum year => do let rate ← r.get year; .ok (accum * (1 + rate))) 1 :
          Except PyErr K).map (fun p => x * p) := by
  induction l generalizing x with
  | nil => simp [Except.map]
  | cons y l ih =>
    rw [List.foldlM_cons, List.foldlM_cons]
    cases hr : r.get y with
    | error e => simp [Except.map]
    | ok v =>
      simp only [ok_bind]
      rw [ih, ih (1 * (1 + v))]
      cases (l.foldlM (fun accum year => do let rate ← r.get year; .ok (accum * (1 + rate))) 1 :
          Except PyErr K) with
      | error e => rfl
      | ok p => simp only [Except.map]; congr 1; ring

theorem accumLoop_split (r : Rates K) {a b c : ℤ} (h1 : a ≤ b) (h2 : b ≤ c) :
    accumLoop r a c = (do let p ← accumLoop r a b; let q ← accumLoop r b c; .ok (p * q)) := by
  unfold accumLoop
  rw [pyRange_append h1 h2, List.foldlM_append]
  cases (pyRange a b).foldlM
    (fun accum year => do let rate ← r.get year; .ok (accum * (1 + rate))) (1 : K) with
  | error e => rfl
  | ok p =>
    simp only [ok_bind]
    rw [accum_from]
    cases (pyRange b c).foldlM
      (fun accum year => do let rate ← r.get year; .ok (accum * (1 + rate))) (1 : K) <;> rfl

/-- success of a split product -/
theorem accumLoop_ok_split (r : Rates K) {a b c : ℤ} (h1 : a ≤ b) (h2 : b ≤ c) {z : K} :
    accumLoop r a c = .ok z ↔
      ∃ p q, accumLoop r a b = .ok p ∧ accumLoop r b c = .ok q ∧ z = p * q := by
  rw [accumLoop_split r h1 h2]
  cases accumLoop r a b with
  | error e => simp
  | ok p =>
    cases accumLoop r b c with
    | error e => simp
    | ok q => simp [eq_comm]

theorem accFn_le (r : Rates K) {a b : ℤ} (h : a ≤ b) :
    accumulationFunction r a b = accumLoop r a b := by simp [accumulationFunction, h]

theorem accFn_gt (r : Rates K) {a b : ℤ} (h : b < a) {x : K} :
    accumulationFunction r a b = .ok x ↔ ∃ p, accumLoop r b a = .ok p ∧ p ≠ 0 ∧ x = 1 / p := by
  simp only [accumulationFunction, not_le.2 h, if_false]
  cases accumLoop r b a with
  | error e => simp
  | ok p =>
    by_cases hp : p = 0
    · simp [hp]
    · simp [hp, eq_comm]

theorem accumLoop_self (r : Rates K) (a : ℤ) : accumLoop r a a = .ok 1 := by
  simp [accumLoop, pyRange_self]

/-- **C11.** `accumulation_function` is 1 from a year to itself and composes along every
chain of years, in any order, whenever the two legs are defined; in particular the two
directions are reciprocal. -/
theorem C11_accumulation_composes (r : Rates K) (a b c : ℤ) :
    accumulationFunction r a a = .ok 1 ∧
    (∀ x y, accumulationFunction r a b = .ok x → accumulationFunction r b c = .ok y →
      accumulationFunction r a c = .ok (x * y)) ∧
    (∀ x y, accumulationFunction r a b = .ok x → accumulationFunction r b a = .ok y →
      x * y = 1) := by
  have hself : ∀ a, accumulationFunction r a a = .ok 1 := fun a => by
    rw [accFn_le r le_rfl, accumLoop_self]
  have chain : ∀ a b c x y, accumulationFunction r a b = .ok x →
      accumulationFunction r b c = .ok y → accumulationFunction r a c = .ok (x * y) := by
    intro a b c x y hx hy
    rcases le_or_gt a b with hab | hab
    · rw [accFn_le r hab] at hx
      rcases le_or_gt b c with hbc | hbc
      · rw [accFn_le r hbc] at hy
        rw [accFn_le r (hab.trans hbc)]
        exact (accumLoop_ok_split r hab hbc).2 ⟨x, y, hx, hy, rfl⟩
      · obtain ⟨p, hp, hp0, rfl⟩ := (accFn_gt r hbc).1 hy
        rcases le_or_gt a c with hac | hac
        · rw [accFn_le r hac]
          obtain ⟨u, v, hu, hv, huv⟩ := (accumLoop_ok_split r hac hbc.le).1 hx
          rw [hp, Except.ok.injEq] at hv
          subst hv; subst huv
          rw [hu]; congr 1; field_simp
        · rw [accFn_gt r hac]
          obtain ⟨u, v, hu, hv, huv⟩ := (accumLoop_ok_split r hac.le hab).1 hp
          rw [hx, Except.ok.injEq] at hv
          subst hv; subst huv
          have hu0 : u ≠ 0 := left_ne_zero_of_mul hp0
          have hx0 : x ≠ 0 := right_ne_zero_of_mul hp0
          exact ⟨u, hu, hu0, by field_simp⟩
    · obtain ⟨p, hp, hp0, rfl⟩ := (accFn_gt r hab).1 hx
      rcases le_or_gt b c with hbc | hbc
      · rw [accFn_le r hbc] at hy
        rcases le_or_gt a c with hac | hac
        · rw [accFn_le r hac]
          obtain ⟨u, v, hu, hv, huv⟩ := (accumLoop_ok_split r hab.le hac).1 hy
          rw [hp, Except.ok.injEq] at hu
          subst hu; subst huv
          rw [hv]; congr 1; field_simp
        · rw [accFn_gt r hac]
          obtain ⟨u, v, hu, hv, huv⟩ := (accumLoop_ok_split r hbc hac.le).1 hp
          rw [hy, Except.ok.injEq] at hu
          subst hu; subst huv
          have hy0 : y ≠ 0 := left_ne_zero_of_mul hp0
          have hv0 : v ≠ 0 := right_ne_zero_of_mul hp0
          exact ⟨v, hv, hv0, by field_simp⟩
      · obtain ⟨q, hq, hq0, rfl⟩ := (accFn_gt r hbc).1 hy
        rw [accFn_gt r (hbc.trans hab)]
        refine ⟨q * p, (accumLoop_ok_split r hbc.le hab.le).2 ⟨q, p, hq, hp, rfl⟩,
          mul_ne_zero hq0 hp0, by field_simp⟩
  refine ⟨hself a, chain a b c, ?_⟩
  intro x y hx hy
  have := chain a b a x y hx hy
  rw [hself a, Except.ok.injEq] at this
  exact this.symm

/-- **C11** (one year, sign). One step forward multiplies by `1 + rate`; over years whose
rates all exceed -100% the factor exists in both directions and is positive. -/
theorem C11_accumulation_year (r : Rates K) (a b : ℤ) :
    (∀ x, r.get a = .ok x → accumulationFunction r a (a + 1) = .ok (1 + x)) ∧
    ((∀ y, min a b ≤ y → y < max a b → ∃ x, r.get y = .ok x ∧ -1 < x) →
      ∃ p, accumulationFunction r a b = .ok p ∧ 0 < p) ∧
    (a ≤ b → (∀ y, a ≤ y → y < b → ∃ x, r.get y = .ok x ∧ 0 ≤ x) →
      ∃ p, accumulationFunction r a b = .ok p ∧ 1 ≤ p) := by
  have gen : ∀ (P Q : K → Prop), Q 1 → (∀ p x, Q p → P x → Q (p * (1 + x))) → ∀ l : List ℤ,
      (∀ y ∈ l, ∃ x, r.get y = .ok x ∧ P x) → ∀ q, Q q → ∃ p, (l.foldlM
        (fun accum year => do let rate ← r.get year; .ok (accum * (1 + rate))) q
          : Except PyErr K) = .ok p ∧ Q p := by
    intro P Q _ hstep l
    induction l with
    | nil => intro _ q hq; exact ⟨q, rfl, hq⟩
    | cons y l ih =>
      intro h q hq
      obtain ⟨x, hx, hPx⟩ := h y (by simp)
      rw [List.foldlM_cons, hx]
      exact ih (fun z hz => h z (List.mem_cons_of_mem _ hz)) _ (hstep q x hq hPx)
  refine ⟨?_, ?_, ?_⟩
  · intro x hx
    rw [accFn_le r (by omega)]
    have : pyRange a (a + 1) = [a] := by
      unfold pyRange
      have : (a + 1 - a).toNat = 1 := by omega
      rw [this]; simp
    simp [accumLoop, this, hx]
  · intro h
    rcases le_or_gt a b with hab | hab
    · rw [accFn_le r hab]
      apply gen (fun x => -1 < x) (fun p => 0 < p) one_pos
        (fun p x hp hx => mul_pos hp (by linarith)) _ _ 1 one_pos
      intro y hy
      rw [mem_pyRange] at hy
      exact h y (by rw [min_eq_left hab]; exact hy.1) (by rw [max_eq_right hab]; exact hy.2)
    · obtain ⟨p, hp, hp0⟩ := gen (fun x => -1 < x) (fun p => 0 < p) one_pos
        (fun p x hp hx => mul_pos hp (by linarith)) (pyRange b a) (by
          intro y hy
          rw [mem_pyRange] at hy
          exact h y (by rw [min_eq_right hab.le]; exact hy.1)
            (by rw [max_eq_left hab.le]; exact hy.2)) 1 one_pos
      exact ⟨1 / p, (accFn_gt r hab).2 ⟨p, hp, hp0.ne', rfl⟩, by positivity⟩
  · intro hab h
    rw [accFn_le r hab]
    apply gen (fun x => 0 ≤ x) (fun p => 1 ≤ p) le_rfl
      (fun p x hp hx => by nlinarith) _ _ 1 le_rfl
    intro y hy
    rw [mem_pyRange] at hy
    exact h y hy.1 hy.2

/-- **C11** (coverage). A list of rates covers exactly the years from the initial year on,
in order; a scalar covers every year; a dict covers its own years; `num_years < 1` is
rejected; and iterating a scenario yields its `num_years` years in ascending order. -/
theorem C11_scenario_years (y0 n : ℤ) (i s b o m : RateArg K) :
    (n < 1 → Scenario.init y0 n i s b o m = .error .valueError) ∧
    (∀ sc, Scenario.init y0 n i s b o m = .ok sc →
      sc.initialYear = y0 ∧ (sc.years.length : ℤ) = n ∧ sc.years.Pairwise (· < ·) ∧
      (∀ y, y ∈ sc.years ↔ y0 ≤ y ∧ y < y0 + n) ∧
      buildDict y0 i = .ok sc.inflation ∧ buildDict y0 s = .ok sc.stockReturn ∧
      buildDict y0 b = .ok sc.bondReturn ∧ buildDict y0 o = .ok sc.otherReturn ∧
      buildDict y0 m = .ok sc.managementFees) ∧
    (∀ l : List K, ∃ r, buildDict y0 (.list l) = .ok r ∧
      ∀ y, r.get y = if y < y0 then .error .keyError else
        match l[(y - y0).toNat]? with
        | some v => .ok v
        | none => .error .keyError) ∧
    (∀ x : K, ∃ r, buildDict y0 (.scalar x) = .ok r ∧ ∀ y, r.get y = .ok x) ∧
    (∀ d : Dict ℤ K, ∃ r, buildDict y0 (.dict d) = .ok r ∧ ∀ y v,
      r.get y = .ok v ↔ Dict.get? d y = some v) := by
  refine ⟨?_, ?_, ?_, ?_, ?_⟩
  · intro h; simp [Scenario.init, h]
  · intro sc h
    unfold Scenario.init at h
    by_cases hn : n < 1
    · simp [hn] at h
    simp only [hn, if_false] at h
    rcases hi : buildDict y0 i with e | i'
    · simp [hi] at h
    rcases hs : buildDict y0 s with e | s'
    · simp [hi, hs] at h
    rcases hb : buildDict y0 b with e | b'
    · simp [hi, hs, hb] at h
    rcases ho : buildDict y0 o with e | o'
    · simp [hi, hs, hb, ho] at h
    rcases hm : buildDict y0 m with e | m'
    · simp [hi, hs, hb, ho, hm] at h
    simp only [hi, hs, hb, ho, hm, ok_bind, Except.ok.injEq] at h
    subst h
    refine ⟨rfl, ?_, ?_, ?_, rfl, rfl, rfl, rfl, rfl⟩
    · simp [Scenario.years, pyRange]; omega
    · unfold Scenario.years pyRange
      rw [List.pairwise_map]
      exact List.pairwise_lt_range.imp (fun h => by omega)
    · intro y; exact mem_pyRange
  · intro l
    refine ⟨_, rfl, ?_⟩
    intro y
    have key : ∀ (l : List K) (k : ℕ), Dict.get?
        (List.zipWith (fun (i : ℕ) v => (y0 + (i : ℤ), v)) (List.range' k l.length) l) y
        = if y < y0 + k then none else l[(y - (y0 + k)).toNat]? := by
      intro l
      induction l with
      | nil => intro k; simp
      | cons v l ih =>
        intro k
        simp only [List.length_cons, List.range'_succ, List.zipWith_cons_cons, Dict.get?_cons]
        rw [ih (k + 1)]
        by_cases h1 : y0 + (k : ℤ) = y
        · subst h1; simp
        · simp only [h1, if_false]
          push_cast
          by_cases h2 : y < y0 + k
          · have h3 : y < y0 + ((k : ℤ) + 1) := by omega
            simp [h2, h3]
          · have h3 : ¬ y < y0 + ((k : ℤ) + 1) := by omega
            simp only [h2, h3, if_false]
            have h4 : (y - (y0 + (k : ℤ))).toNat = (y - (y0 + ((k : ℤ) + 1))).toNat + 1 := by omega
            rw [h4]; simp
    have k0 := key l 0
    rw [← List.range_eq_range'] at k0
    unfold Rates.get
    simp only
    rw [k0]
    simp only [Int.natCast_zero, add_zero]
    by_cases h : y < y0
    · simp [h]
    · simp only [h, if_false]
      cases l[(y - y0).toNat]? <;> rfl
  · intro x
    exact ⟨_, rfl, fun y => rfl⟩
  · intro d
    refine ⟨_, rfl, ?_⟩
    intro y v
    unfold Rates.get
    simp only
    cases Dict.get? d y <;> simp

/-- **C11** (`inflation_adjust`). The factor from `base` to `target`, defaulting to the
scenario's initial year: converting a base-year amount to target-year money and back
is the identity. -/
theorem C11_inflation_adjust (s : Scenario K) (target base : ℤ) :
    s.inflationAdjust target (some base) = accumulationFunction s.inflation base target ∧
    s.inflationAdjust target none = s.inflationAdjust target (some s.initialYear) ∧
    s.inflationAdjust base (some base) = .ok 1 ∧
    (∀ x, s.inflation.get base = .ok x → s.inflationAdjust (base + 1) (some base) = .ok (1 + x)) ∧
    (∀ x y, s.inflationAdjust target (some base) = .ok x →
      s.inflationAdjust base (some target) = .ok y → x * y = 1) :=
  ⟨rfl, rfl, (C11_accumulation_composes s.inflation base base base).1,
    (C11_accumulation_year s.inflation base base).1,
    fun x y hx hy => (C11_accumulation_composes s.inflation base target base).2.2 x y hx hy⟩

/-- A concrete scenario: 10%, 20%, 25% inflation from 2000 on. -/
example : accumulationFunction
    (⟨[(2000, 1/10), (2001, 1/5), (2002, 1/4)], none⟩ : Rates ℚ) 2003 2001 = .ok (2/3) := by
  decide +kernel

/-- **C11 (disagreement).** `inflation_adjustments(base_year)` is documented as "cumulative
inflation since base_year", but returns its reciprocal: with 100% inflation the entry
for the year after the base year is 1/2, not 2. -/
theorem C11_inflation_adjustments_inverted :
    ∃ s : Scenario ℚ, ∃ d, s.inflationAdjustments 2000 = .ok d ∧
      Dict.get? d 2001 = some (1 / 2) ∧ s.inflationAdjust 2001 (some 2000) = .ok 2 :=
  ⟨⟨2000, 2, ⟨[], some 1⟩, ⟨[], some 0⟩, ⟨[], some 0⟩, ⟨[], some 0⟩, ⟨[], some 0⟩⟩,
    [(2000, 1), (2001, 1 / 2)], by decide +kernel, by decide +kernel, by decide +kernel⟩

end Forecaster.Inflation
