import Verif.Model.Accum
import Verif.Lemmas.Timing
import Mathlib.Tactic.Ring
import Mathlib.Tactic.FieldSimp
import Mathlib.Tactic.Positivity
import Mathlib.Tactic.NormNum

/-!
# Properties of `forecaster/accounts/util.py` (C16, C17)
-/

set_option linter.unusedSectionVars false

namespace Forecaster.Accum

open Forecaster Forecaster.Timing

/-- The rates for which money never vanishes: any rate when compounding continuously, more
than -100% per compounding period otherwise. -/
def Valid (rate : ℝ) : Option ℝ → Prop
  | none => True
  | some n => 0 < n ∧ 0 < 1 + rate / n

/-- **C16.** `A(0) = 1`, `A(t) > 0`, `A(s+t) = A(s) A(t)` and `A(-t) = 1 / A(t)`. -/
theorem C16_exponential_law (rate : ℝ) (nper : Option ℝ) (h : Valid rate nper) :
    accumulationFunction 0 rate nper = 1 ∧
    (∀ t, 0 < accumulationFunction t rate nper) ∧
    (∀ s t, accumulationFunction (s + t) rate nper
      = accumulationFunction s rate nper * accumulationFunction t rate nper) ∧
    (∀ t, accumulationFunction (-t) rate nper = (accumulationFunction t rate nper)⁻¹) := by
  cases nper with
  | none =>
    refine ⟨by simp [accumulationFunction], fun t => Real.exp_pos _, fun s t => ?_, fun t => ?_⟩
    · simp only [accumulationFunction]; rw [mul_add, Real.exp_add]
    · simp only [accumulationFunction]; rw [mul_neg, Real.exp_neg]
  | some n =>
    obtain ⟨hn, hb⟩ := h
    refine ⟨by simp [accumulationFunction], fun t => Real.rpow_pos_of_pos hb _,
      fun s t => ?_, fun t => ?_⟩
    · simp only [accumulationFunction]; rw [mul_add, Real.rpow_add hb]
    · simp only [accumulationFunction]; rw [mul_neg, Real.rpow_neg hb.le]

example : Valid (5 / 100) (some 12) := by constructor <;> norm_num
example : Valid (-2) none := trivial

/-- **C16.** One year at `rate` with annual compounding grows by exactly `1 + rate`; with `n`
compounding periods by `(1 + rate/n)^n`; continuously by `e^rate`. -/
theorem C16_one_year (rate : ℝ) :
    accumulationFunction 1 rate (some 1) = 1 + rate ∧
    (∀ n : ℕ, accumulationFunction 1 rate (some n) = (1 + rate / n) ^ n) ∧
    accumulationFunction 1 rate none = Real.exp rate := by
  refine ⟨by simp [accumulationFunction], fun n => ?_, by simp [accumulationFunction]⟩
  simp [accumulationFunction]

/-- **C16.** Money grows strictly with time at positive rates, shrinks strictly at negative
rates and stays put at rate 0. -/
theorem C16_monotone_time (rate : ℝ) (nper : Option ℝ) (h : Valid rate nper) (s t : ℝ)
    (hst : s < t) :
    (0 < rate → accumulationFunction s rate nper < accumulationFunction t rate nper) ∧
    (rate < 0 → accumulationFunction t rate nper < accumulationFunction s rate nper) ∧
    (rate = 0 → accumulationFunction t rate nper = accumulationFunction s rate nper) := by
  cases nper with
  | none =>
    simp only [accumulationFunction, Real.exp_lt_exp]
    refine ⟨fun hr => mul_lt_mul_of_pos_left hst hr, fun hr => mul_lt_mul_of_neg_left hst hr,
      fun hr => by simp [hr]⟩
  | some n =>
    obtain ⟨hn, hb⟩ := h
    simp only [accumulationFunction]
    have hm : n * s < n * t := mul_lt_mul_of_pos_left hst hn
    refine ⟨fun hr => Real.rpow_lt_rpow_of_exponent_lt ?_ hm,
      fun hr => Real.rpow_lt_rpow_of_exponent_gt hb ?_ hm, fun hr => by simp [hr]⟩
    · have := div_pos hr hn; linarith
    · have := div_neg_of_neg_of_pos hr hn; linarith

/-- **C16.** Over any positive time a higher rate gives strictly more money, with the same
compounding. -/
theorem C16_monotone_rate (r r' : ℝ) (nper : Option ℝ) (h : Valid r nper) (hr : r < r') (t : ℝ)
    (ht : 0 < t) :
    accumulationFunction t r nper < accumulationFunction t r' nper := by
  cases nper with
  | none =>
    simp only [accumulationFunction, Real.exp_lt_exp]
    exact mul_lt_mul_of_pos_right hr ht
  | some n =>
    obtain ⟨hn, hb⟩ := h
    simp only [accumulationFunction]
    apply Real.rpow_lt_rpow hb.le _ (by positivity)
    have := div_lt_div_of_pos_right hr hn
    linarith

/-- **C16.** Compounding `n` times a year yields at least simple interest and at most what
continuous compounding yields. -/
theorem C16_compounding_bounds (rate : ℝ) (n : ℕ) (h : Valid rate (some n)) :
    1 + rate ≤ accumulationFunction 1 rate (some n) ∧
    accumulationFunction 1 rate (some n) ≤ accumulationFunction 1 rate none := by
  obtain ⟨hn, hb⟩ := h
  rw [(C16_one_year rate).2.1, (C16_one_year rate).2.2]
  have hn' : n ≠ 0 := by rintro rfl; simp at hn
  constructor
  · have := one_add_mul_le_pow (a := rate / n) (by linarith) n
    rwa [mul_div_cancel₀ _ hn.ne'] at this
  · have h1 : 1 + rate / n ≤ Real.exp (rate / n) := by
      have := Real.add_one_le_exp (rate / n); linarith
    calc (1 + rate / n) ^ n ≤ Real.exp (rate / n) ^ n := pow_le_pow_left₀ hb.le h1 n
      _ = Real.exp rate := by
        rw [← Real.exp_nat_mul, mul_div_cancel₀ _ hn.ne']

/-- **C17.** The time to grow to the value reached at time `t` is `t`. -/
theorem C17_time_to_value_of_value (v rate : ℝ) (nper : Option ℝ) (h : Valid rate nper)
    (hr : rate ≠ 0) (hv : v ≠ 0) (t : ℝ) :
    timeToValue rate v (v * accumulationFunction t rate nper) nper = .ok (.fin t) := by
  have hpos := (C16_exponential_law rate nper h).2.1 t
  unfold timeToValue accumulationInverse
  rw [if_neg hv, mul_div_cancel_left₀ _ hv, if_neg (not_lt.2 hpos.le), if_neg hr,
    if_neg hpos.ne']
  cases nper with
  | none => simp [accumulationFunction, hr]
  | some n =>
    obtain ⟨hn, hb⟩ := h
    have h1 : (1 + rate / n) ≠ 1 := by
      intro h; have : rate / n = 0 := by linarith
      rcases div_eq_zero_iff.1 this with h | h
      · exact hr h
      · exact hn.ne' h
    simp only [not_le.2 hb, if_false, accumulationFunction]
    rw [Real.logb_rpow hb h1, mul_div_cancel_left₀ _ hn.ne']

/-- **C17.** Conversely, growing for `time_to_value(v, w)` turns `v` into `w`, for any two
values of the same sign. -/
theorem C17_value_of_time_to_value (v w rate : ℝ) (nper : Option ℝ) (h : Valid rate nper)
    (hr : rate ≠ 0) (hvw : 0 < v * w) :
    ∃ t, timeToValue rate v w nper = .ok (.fin t) ∧
      v * accumulationFunction t rate nper = w := by
  have hv : v ≠ 0 := by rintro rfl; simp at hvw
  have hq : 0 < w / v := by
    have : w / v = v * w / (v * v) := by field_simp
    rw [this]; exact div_pos hvw (mul_self_pos.2 hv)
  unfold timeToValue accumulationInverse
  rw [if_neg hv, if_neg (not_lt.2 hq.le), if_neg hr, if_neg hq.ne']
  cases nper with
  | none =>
    refine ⟨_, rfl, ?_⟩
    simp only [accumulationFunction]
    rw [mul_div_cancel₀ _ hr, Real.exp_log hq, mul_div_cancel₀ _ hv]
  | some n =>
    obtain ⟨hn, hb⟩ := h
    have h1 : (1 + rate / n) ≠ 1 := by
      intro h; have : rate / n = 0 := by linarith
      rcases div_eq_zero_iff.1 this with h | h
      · exact hr h
      · exact hn.ne' h
    simp only [not_le.2 hb, if_false]
    refine ⟨_, rfl, ?_⟩
    simp only [accumulationFunction]
    rw [mul_div_cancel₀ _ hn.ne', Real.rpow_logb hb h1 hq, mul_div_cancel₀ _ hv]

/-- **C17.** `accumulation_function_inverse` raises exactly outside its domain, and then `ValueError`: for
a negative factor, for the factor 0 unless the rate is 0, and — the rate not being 0 — if a period's
growth is not positive. -/
theorem C17_inverse_domain (accum rate : ℝ) (nper : Option ℝ) :
    ((∃ x, accumulationInverse accum rate nper = .ok x) ↔
      0 ≤ accum ∧ (rate ≠ 0 → 0 < accum ∧ ∀ n, nper = some n → 0 < 1 + rate / n)) ∧
    ∀ e, accumulationInverse accum rate nper = .error e → e = .valueError := by
  unfold accumulationInverse
  by_cases h1 : accum < 0
  · simp [h1, not_le.2 h1]
  · rw [if_neg h1]
    have h1' := not_lt.1 h1
    by_cases h2 : rate = 0
    · rw [if_pos h2]
      refine ⟨⟨fun _ => ⟨h1', fun h => absurd h2 h⟩, fun _ => ?_⟩, ?_⟩
      · split_ifs <;> exact ⟨_, rfl⟩
      · intro e; split_ifs <;> intro h <;> cases h
    · rw [if_neg h2]
      by_cases h3 : accum = 0
      · simp [h3, h2]
      · rw [if_neg h3]
        have h3' : 0 < accum := lt_of_le_of_ne h1' (Ne.symm h3)
        cases nper with
        | none => simp [h1', h3']
        | some n =>
          by_cases h4 : 1 + rate / n ≤ 0
          · simp [h4, h1', h3', h2, not_lt.2 h4]
          · simp [h4, h1', h3', not_le.1 h4]

/-- **C17.** Edge cases: at rate 0 the target is reached immediately, never (`+inf`), or
"infinitely long ago"; a target of the opposite sign is a `ValueError`. -/
theorem C17_time_to_value_edges (v w rate : ℝ) (nper : Option ℝ) :
    (v ≠ 0 → timeToValue 0 v v nper = .ok (.fin 0)) ∧
    (0 < v → v < w → timeToValue 0 v w nper = .ok .posInf) ∧
    (0 < v → 0 ≤ w → w < v → timeToValue 0 v w nper = .ok .negInf) ∧
    (v * w < 0 → timeToValue rate v w nper = .error .valueError) := by
  unfold timeToValue accumulationInverse
  refine ⟨fun hv => ?_, fun hv hw => ?_, fun hv hw0 hw => ?_, fun h => ?_⟩
  · simp [hv]
  · have h1 : 1 < w / v := by rwa [one_lt_div hv]
    simp [hv.ne', not_lt.2 (zero_le_one.trans h1.le), h1.ne', not_lt.2 h1.le]
  · have h1 : w / v < 1 := by rwa [div_lt_one hv]
    simp [hv.ne', not_lt.2 (div_nonneg hw0 hv.le), h1.ne, h1]
  · have hv : v ≠ 0 := by rintro rfl; simp at h
    have : w / v < 0 := by
      have e : w / v = v * w / (v * v) := by field_simp
      rw [e]; exact div_neg_of_neg_of_pos h (mul_self_pos.2 hv)
    simp [hv, this]

/-- **C16.** `value_at_time(value, rate, now, time)` is `value` grown from `now` to `time`: more
than `value` for a later time at a positive rate, `value * (1 + rate)` over the whole year with
annual compounding. -/
theorem C16_value_at_time (v rate : ℝ) (nper : Option ℝ) (h : Valid rate nper) (s t : ℝ)
    (hs : 0 ≤ s ∧ s ≤ 1) (ht : 0 ≤ t ∧ t ≤ 1) :
    ∃ x, valueAtTime v rate (.num s) (.num t) nper = .ok x ∧
      x = v * accumulationFunction (t - s) rate nper ∧
      (0 < v → 0 < rate → s < t → v < x) ∧ (0 < v → 0 < rate → t < s → x < v) ∧
      (s = 0 → t = 1 → nper = some 1 → x = v * (1 + rate)) := by
  have hc : ∀ z : ℝ, 0 ≤ z ∧ z ≤ 1 → whenConv (.num z) = .ok z := fun z hz =>
    whenConv_ok hz.1 hz.2
  refine ⟨v * accumulationFunction (t - s) rate nper, ?_, rfl, fun hv hr hst => ?_,
    fun hv hr hst => ?_, ?_⟩
  · simp only [valueAtTime, hc s hs, hc t ht, ok_bind]
  · have h0 := (C16_exponential_law rate nper h).1
    have h1 := (C16_monotone_time rate nper h 0 (t - s) (by linarith)).1 hr
    rw [h0] at h1
    nlinarith
  · have h0 := (C16_exponential_law rate nper h).1
    have h1 := (C16_monotone_time rate nper h (t - s) 0 (by linarith)).1 hr
    rw [h0] at h1
    nlinarith
  · rintro rfl rfl rfl
    rw [sub_zero, (C16_one_year rate).1]

/-- **C17.** `value_at_time` is a time shift: discounting back what was grown returns the
original value, and growing in two steps is growing in one. -/
theorem C17_value_at_time_roundtrip (v rate : ℝ) (nper : Option ℝ) (h : Valid rate nper)
    (r s t : ℝ) (hr : 0 ≤ r ∧ r ≤ 1) (hs : 0 ≤ s ∧ s ≤ 1) (ht : 0 ≤ t ∧ t ≤ 1) :
    ∃ x y, valueAtTime v rate (.num r) (.num s) nper = .ok x ∧
      valueAtTime x rate (.num s) (.num t) nper = .ok y ∧
      valueAtTime v rate (.num r) (.num t) nper = .ok y ∧
      valueAtTime x rate (.num s) (.num r) nper = .ok v := by
  have hc : ∀ z : ℝ, 0 ≤ z ∧ z ≤ 1 → whenConv (.num z) = .ok z := fun z hz =>
    whenConv_ok hz.1 hz.2
  obtain ⟨h0, -, hadd, -⟩ := C16_exponential_law rate nper h
  simp only [valueAtTime, hc r hr, hc s hs, hc t ht, ok_bind, Except.ok.injEq]
  refine ⟨_, _, rfl, rfl, ?_, ?_⟩
  · rw [mul_assoc, ← hadd]; ring_nf
  · rw [mul_assoc, ← hadd]
    have : s - r + (r - s) = 0 := by ring
    rw [this, h0, mul_one]

/-- Rate 5% compounded monthly meets the hypotheses: 100 grows to the value at `t = 1/2`,
and the time to reach it is found again. -/
example : timeToValue (5 / 100) 100 (100 * accumulationFunction (1 / 2) (5 / 100) (some 12))
    (some 12) = .ok (.fin (1 / 2)) :=
  C17_time_to_value_of_value _ _ _ (by constructor <;> norm_num) (by norm_num) (by norm_num) _

example : valueAtTime 100 1 (.num 0) (.num 1) (some 1) = .ok 200 := by
  have : whenConv (.num (0 : ℝ)) = .ok 0 := whenConv_ok (by norm_num) (by norm_num)
  have h1 : whenConv (.num (1 : ℝ)) = .ok 1 := whenConv_ok (by norm_num) (by norm_num)
  simp only [valueAtTime, this, h1, ok_bind, sub_zero, (C16_one_year 1).1]
  norm_num

end Forecaster.Accum
