import Mathlib.Analysis.Convex.SpecificFunctions.Basic
import Mathlib.Analysis.Convex.SpecificFunctions.Pow
import Verif.Props.Accum
import Verif.Props.Saving

/-!
# C126: compounding more often
-/

namespace Forecaster.Accum

open Forecaster Forecaster.Timing

/-- Specification: the second frequency (periods per year, `none` for continuous) is at least the first. -/
def AtLeastAsOften : Option ℕ → Option ℕ → Prop
  | some n, some m => n ≤ m
  | some _, none => True
  | none, some _ => False
  | none, none => True

/-- The number of periods as `accumulation_function` takes it. -/
noncomputable def periods (p : Option ℕ) : Option ℝ := p.map fun n => (n : ℝ)

theorem Valid.more {rate : ℝ} {p q : Option ℕ} (h : Valid rate (periods p)) (hpq : AtLeastAsOften p q) :
    Valid rate (periods q) := by
  cases q with
  | none => trivial
  | some m =>
    cases p with
    | none => exact hpq.elim
    | some n =>
      obtain ⟨hn, hb⟩ := h
      have hnm : (n : ℝ) ≤ m := by exact_mod_cast (hpq : n ≤ m)
      have hn : (0 : ℝ) < n := hn
      have hb : 0 < 1 + rate / n := hb
      refine ⟨hn.trans_le hnm, ?_⟩
      show 0 < 1 + rate / m
      rcases le_total 0 rate with hr | hr
      · have : 0 ≤ rate / m := div_nonneg hr (hn.trans_le hnm).le
        linarith
      · have : rate / n ≤ rate / m := by
          rw [div_le_div_iff₀ hn (hn.trans_le hnm)]
          exact mul_le_mul_of_nonpos_left hnm hr
        linarith

/-- A year. -/
theorem year_le {rate : ℝ} {p q : Option ℕ} (h : Valid rate (periods p)) (hpq : AtLeastAsOften p q) :
    accumulationFunction 1 rate (periods p) ≤ accumulationFunction 1 rate (periods q) ∧
    (rate ≠ 0 → p ≠ q →
      accumulationFunction 1 rate (periods p) < accumulationFunction 1 rate (periods q)) := by
  cases p with
  | none =>
    cases q with
    | none => exact ⟨le_rfl, fun _ h => absurd rfl h⟩
    | some m => exact hpq.elim
  | some n =>
    obtain ⟨hn, hb⟩ := h
    have hn : (0 : ℝ) < n := hn
    have hb : 0 < 1 + rate / n := hb
    cases q with
    | none =>
      show (1 + rate / n) ^ ((n : ℝ) * 1) ≤ Real.exp (rate * 1) ∧
        (rate ≠ 0 → some n ≠ none → (1 + rate / n) ^ ((n : ℝ) * 1) < Real.exp (rate * 1))
      have e : Real.exp (rate * 1) = Real.exp (rate / n) ^ ((n : ℝ) * 1) := by
        rw [← Real.exp_mul]
        congr 1
        field_simp
      rw [e]
      constructor
      · exact Real.rpow_le_rpow hb.le (by linarith [Real.add_one_le_exp (rate / n)]) (by linarith)
      · intro hr _
        have : rate / n ≠ 0 := div_ne_zero hr hn.ne'
        exact Real.rpow_lt_rpow hb.le (by linarith [Real.add_one_lt_exp this]) (by linarith)
    | some m =>
      have hnm : (n : ℝ) ≤ m := by exact_mod_cast (hpq : n ≤ m)
      have hm : (0 : ℝ) < m := hn.trans_le hnm
      show (1 + rate / n) ^ ((n : ℝ) * 1) ≤ (1 + rate / m) ^ ((m : ℝ) * 1) ∧
        (rate ≠ 0 → some n ≠ some m →
          (1 + rate / n) ^ ((n : ℝ) * 1) < (1 + rate / m) ^ ((m : ℝ) * 1))
      rw [mul_one, mul_one]
      have e : (1 + rate / n) ^ (n : ℝ) = ((1 + rate / n) ^ ((n : ℝ) / m)) ^ (m : ℝ) := by
        rw [← Real.rpow_mul hb.le, div_mul_cancel₀ _ hm.ne']
      have e2 : 1 + (n : ℝ) / m * (rate / n) = 1 + rate / m := by
        congr 1
        field_simp
      have hs : -1 ≤ rate / n := by linarith
      rw [e]
      constructor
      · refine Real.rpow_le_rpow (Real.rpow_nonneg hb.le _) ?_ hm.le
        rw [← e2]
        exact rpow_one_add_le_one_add_mul_self hs (by positivity) ((div_le_one hm).2 hnm)
      · intro hr hne
        have hlt : (n : ℝ) < m := lt_of_le_of_ne hnm fun h => hne (by rw [Nat.cast_injective h])
        refine Real.rpow_lt_rpow (Real.rpow_nonneg hb.le _) ?_ hm
        rw [← e2]
        exact rpow_one_add_lt_one_add_mul_self hs (div_ne_zero hr hn.ne') (by positivity)
          ((div_lt_one hm).2 hlt)

theorem accumulation_pow {rate : ℝ} {p : Option ℝ} (h : Valid rate p) (t : ℝ) :
    accumulationFunction t rate p = accumulationFunction 1 rate p ^ t := by
  cases p with
  | none =>
    show Real.exp (rate * t) = Real.exp (rate * 1) ^ t
    rw [← Real.exp_mul, mul_one]
  | some n =>
    show (1 + rate / n) ^ (n * t) = ((1 + rate / n) ^ (n * 1)) ^ t
    rw [← Real.rpow_mul h.2.le, mul_one]

/-- **C126.** At the same rate, whether positive or negative, money that is compounded more often has grown by
no less (shrunk by no more) at any time, and goes back to no more in the past; strictly so unless the rate
or the time is 0. -/
theorem C126_accumulation {rate : ℝ} {p q : Option ℕ} (h : Valid rate (periods p))
    (hpq : AtLeastAsOften p q) (t : ℝ) :
    (0 ≤ t → accumulationFunction t rate (periods p) ≤ accumulationFunction t rate (periods q)) ∧
    (t ≤ 0 → accumulationFunction t rate (periods q) ≤ accumulationFunction t rate (periods p)) ∧
    (rate ≠ 0 → p ≠ q →
      (0 < t → accumulationFunction t rate (periods p) < accumulationFunction t rate (periods q)) ∧
      (t < 0 → accumulationFunction t rate (periods q) < accumulationFunction t rate (periods p))) := by
  have hq := h.more hpq
  have p1 := (C16_exponential_law rate _ h).2.1 1
  have q1 := (C16_exponential_law rate _ hq).2.1 1
  obtain ⟨y1, y2⟩ := year_le h hpq
  rw [accumulation_pow h, accumulation_pow hq]
  refine ⟨fun ht => Real.rpow_le_rpow p1.le y1 ht, fun ht => Real.rpow_le_rpow_of_nonpos p1 y1 ht,
    fun hr hne => ⟨fun ht => Real.rpow_lt_rpow p1.le (y2 hr hne) ht,
      fun ht => Real.rpow_lt_rpow_of_neg p1 (y2 hr hne) ht⟩⟩

/-- **C126.** So a target above what one has is reached no later when compounding more often, and one below
(at a negative rate) no earlier. -/
theorem C126_time_to_value {rate : ℝ} {p q : Option ℕ} (h : Valid rate (periods p))
    (hpq : AtLeastAsOften p q) (hr : rate ≠ 0) {v w : ℝ} (hv : 0 < v) (hw : 0 < w) :
    ∃ s t, timeToValue rate v w (periods p) = .ok (.fin s) ∧ timeToValue rate v w (periods q) = .ok (.fin t) ∧
      (0 < rate → v ≤ w → t ≤ s) ∧ (rate < 0 → w ≤ v → s ≤ t) := by
  have hq := h.more hpq
  obtain ⟨s, hs, es⟩ := C17_value_of_time_to_value v w rate _ h hr (mul_pos hv hw)
  obtain ⟨t, ht, et⟩ := C17_value_of_time_to_value v w rate _ hq hr (mul_pos hv hw)
  have same : accumulationFunction s rate (periods p) = accumulationFunction t rate (periods q) :=
    mul_left_cancel₀ hv.ne' (es.trans et.symm)
  have one : ∀ r : Option ℝ, Valid rate r → accumulationFunction 0 rate r = 1 := fun r hr =>
    (C16_exponential_law rate r hr).1
  refine ⟨s, t, hs, ht, fun hpos hvw => ?_, fun hneg hvw => ?_⟩
  · by_contra hlt
    have hlt := not_le.1 hlt
    have hs0 : 0 ≤ s := by
      by_contra h0
      have := (C16_monotone_time rate _ h s 0 (not_le.1 h0)).1 hpos
      rw [one _ h] at this
      have : v * accumulationFunction s rate (periods p) < v * 1 := mul_lt_mul_of_pos_left this hv
      linarith
    have h1 := (C126_accumulation h hpq s).1 hs0
    have h2 := (C16_monotone_time rate _ hq s t hlt).1 hpos
    linarith
  · by_contra hlt
    have hlt := not_le.1 hlt
    have ht0 : 0 ≤ t := by
      by_contra h0
      have := (C16_monotone_time rate _ hq t 0 (not_le.1 h0)).2.1 hneg
      rw [one _ hq] at this
      have : v * 1 < v * accumulationFunction t rate (periods q) := mul_lt_mul_of_pos_left this hv
      linarith
    have h1 := (C126_accumulation h hpq t).1 ht0
    have h2 := (C16_monotone_time rate _ h t s hlt).2.1 hneg
    linarith

/-- **C126.** The frequencies that have names, from the least to the most frequent one. -/
theorem C126_named_frequencies : ∃ l : List (Option ℕ),
    ["A", "SA", "Q", "BM", "M", "SM", "BW", "W", "D", "C"].map (fun s => frequencyConv (.str s))
      = l.map .ok ∧ l.Pairwise (fun p q => AtLeastAsOften p q ∧ p ≠ q) := by
  refine ⟨[some 1, some 2, some 4, some 6, some 12, some 24, some 26, some 52, some 365, none], by decide, ?_⟩
  simp [AtLeastAsOften]

end Forecaster.Accum

namespace Forecaster.Account

open Forecaster Forecaster.Timing Forecaster.Accum

/-- **C126.** Two accounts start with the same, never negative, balance, earn the same rates and are paid the
same, for any number of years. The one that compounds more often never holds less. -/
theorem C126_savings (y : ℤ) (rate : ℤ → ℝ) {p q : Option ℕ} (hpq : AtLeastAsOften p q)
    (hv : ∀ i, Valid (rate i) (periods p)) (dt dt' : Dict ℝ ℝ) {b : ℝ} (hb : 0 ≤ b)
    (P : Plan ℝ) (L : List (ℝ × ℝ)) (hd : Plan.Dated (P ++ [L]))
    (hpay : ∀ M ∈ P ++ [L], ∀ e ∈ M, 0 ≤ e.2) (t : ℝ) (h0 : 0 ≤ t) (h1 : t ≤ 1) :
    ∃ x x',
      balanceAtTime (run (init y b (fun i s => accumulationFunction s (rate i) (periods p)) dt)
        (P.ops ++ adds L)) (.num t) none = .ok x ∧
      balanceAtTime (run (init y b (fun i s => accumulationFunction s (rate i) (periods q)) dt')
        (P.ops ++ adds L)) (.num t) none = .ok x' ∧
      x ≤ x' := by
  refine C104_better_rates y _ _ dt dt' b hb (fun i s _ _ => ?_) (fun i s h0 _ => ?_) P L hd hpay t h0 h1
  · exact ((C16_exponential_law _ _ (hv i)).2.1 s).le
  · exact (C126_accumulation (hv i) hpq s).1 h0

/-- **C126.** Two accounts start with the same debt (or nothing), are charged the same rates and are drawn on
in the same way, without repayments, for any number of years. The one that compounds more often never owes
less. -/
theorem C126_borrowing (y : ℤ) (rate : ℤ → ℝ) {p q : Option ℕ} (hpq : AtLeastAsOften p q)
    (hv : ∀ i, Valid (rate i) (periods p)) (dt dt' : Dict ℝ ℝ) {b : ℝ} (hb : b ≤ 0)
    (P : Plan ℝ) (L : List (ℝ × ℝ)) (hd : Plan.Dated (P ++ [L]))
    (hpay : ∀ M ∈ P ++ [L], ∀ e ∈ M, e.2 ≤ 0) (t : ℝ) (h0 : 0 ≤ t) (h1 : t ≤ 1) :
    ∃ x x',
      balanceAtTime (run (init y b (fun i s => accumulationFunction s (rate i) (periods p)) dt)
        (P.ops ++ adds L)) (.num t) none = .ok x ∧
      balanceAtTime (run (init y b (fun i s => accumulationFunction s (rate i) (periods q)) dt')
        (P.ops ++ adds L)) (.num t) none = .ok x' ∧
      x' ≤ x := by
  set g : ℤ → ℝ → ℝ := fun i s => accumulationFunction s (rate i) (periods p) with hg
  set g' : ℤ → ℝ → ℝ := fun i s => accumulationFunction s (rate i) (periods q) with hg'
  have pos : ∀ i s, 0 ≤ g i s := fun i s => ((C16_exponential_law _ _ (hv i)).2.1 s).le
  have pos' : ∀ i s, 0 ≤ g' i s := fun i s => ((C16_exponential_law _ _ ((hv i).more hpq)).2.1 s).le
  have le : ∀ i s, 0 ≤ s → g i s ≤ g' i s := fun i s h0 => (C126_accumulation (hv i) hpq s).1 h0
  have bal : ∀ (g : ℤ → ℝ → ℝ) dt, balance (init y b g dt) = .ok b := by
    intro g dt
    simp [balance, init, Dict.get?_cons]
  have hM : ∀ M ∈ P ++ [L], List.Forall₂ (fun p q : ℝ × ℝ => p.1 = q.1 ∧
      ∀ i s, 0 ≤ s → s ≤ 1 → p.2 * g' i s ≤ q.2 * g i s) M M := fun M hM =>
    List.forall₂_same.2 fun p hp => ⟨rfl, fun i s h0 h1 =>
      mul_le_mul_of_nonpos_left (le i s h0) (hpay M hM p hp)⟩
  obtain ⟨x', x, e', e, h⟩ := ahead_over_years P P (fun M hM => hd M (by simp [hM]))
    (fun M hM => hd M (by simp [hM])) g' g (List.forall₂_same.2 fun M hm => hM M (by simp [hm]))
    (fun b => b ≤ 0)
    (fun i b M hb hm => by
      refine add_nonpos (mul_nonpos_of_nonpos_of_nonneg hb (pos' i 1)) ?_
      unfold grown
      have nonpos : ∀ l : List ℝ, (∀ x ∈ l, x ≤ 0) → l.sum ≤ 0 := by
        intro l
        induction l with
        | nil => intro _; simp
        | cons x l ih =>
          intro h
          rw [List.sum_cons]
          exact add_nonpos (h x (by simp)) (ih fun z hz => h z (by simp [hz]))
      apply nonpos
      intro x hx
      obtain ⟨p, hp, rfl⟩ := List.mem_map.1 hx
      obtain ⟨hp1, hp2⟩ := List.mem_filter.1 hp
      exact mul_nonpos_of_nonpos_of_nonneg (hpay M (by simp [hm]) p hp1) (pos' i _))
    (init y b g' dt') (init y b g dt) (inv_init _ _ _ _) (inv_init _ _ _ _) rfl rfl rfl rfl rfl
    (fun b b' i s hb hbb h0 h1 => (mul_le_mul_of_nonpos_left (le i s h0) hb).trans
      (mul_le_mul_of_nonneg_right hbb (pos i s))) (bal g' dt')
    (bal g dt) le_rfl hb L L (hd L (by simp)) (hd L (by simp)) (hM L (by simp)) h0 h1
  exact ⟨x, x', e, e', h⟩

/-- The hypotheses are met by an account that is compounded monthly and one that is compounded daily, at
5% and, every other year, at -5%. -/
example : frequencyConv (.str "M") = .ok (some 12) ∧ frequencyConv (.num 365) = .ok (some 365) ∧
    AtLeastAsOften (some 12) (some 365) ∧
    ∀ i : ℤ, Valid (if i % 2 = 0 then 5 / 100 else -5 / 100) (periods (some 12)) := by
  refine ⟨by decide, by decide +kernel, (by decide : 12 ≤ 365), fun i => ⟨?_, ?_⟩⟩
  · show (0 : ℝ) < ((12 : ℕ) : ℝ); norm_num
  · show (0 : ℝ) < 1 + _ / ((12 : ℕ) : ℝ)
    split_ifs <;> norm_num

end Forecaster.Account
