import Verif.Lemmas.Timing
import Mathlib.Tactic.FieldSimp

/-!
# Properties of `forecaster/utility/timing.py` (C01 - C08)
-/

set_option linter.unusedSectionVars false

namespace Forecaster.Timing

variable {K : Type} [Field K] [LinearOrder K] [IsStrictOrderedRing K]

/-! ## C01: `Timing(when, frequency)` -/

theorem pyInt_natCast (n : ℕ) : pyInt (n : ℚ) = n := by
  simp [pyInt]

/-- **C01.** `Timing(when=x, frequency=n)` has exactly `n` timings, the `i`-th one
at `(i+x)/n` (inside the `i`-th of `n` equal periods), each of weight `1/n`; the
timings are distinct, lie in `[0,1]` and the weights sum to 1. -/
theorem C01_timing_uniform (x : K) (hx0 : 0 ≤ x) (hx1 : x ≤ 1) (n : ℕ) (hn : 0 < n) :
    ∃ d, init (.scalar (.num x)) (.num n) = .ok d ∧ d.length = n ∧ Dict.WF d ∧
      Dict.total d = 1 ∧
      (∀ i < n, d[i]? = some (((i : K) + x) / n, 1 / (n : K))) ∧
      (∀ i < n, ∀ e, d[i]? = some e → (i : K) / n ≤ e.1 ∧ e.1 ≤ ((i : K) + 1) / n) ∧
      (∀ k ∈ Dict.keys d, 0 ≤ k ∧ k ≤ 1) := by
  have hnK : (0 : K) < n := by exact_mod_cast hn
  have hloop : ∀ m : ℕ, (List.range m).foldl
      (fun d (time : ℕ) => Dict.set d (((time : K) + x) / (n : K)) (1 / (n : K))) []
      = (List.range m).map fun i : ℕ => (((i : K) + x) / (n : K), 1 / (n : K)) := by
    intro m
    induction m with
    | zero => rfl
    | succ m ih =>
      rw [List.range_succ, List.foldl_append, ih, List.map_append]
      simp only [List.foldl_cons, List.foldl_nil]
      apply Dict.set_of_not_mem
      unfold Dict.keys
      rw [List.map_map]
      intro hmem
      obtain ⟨i, hi, he⟩ := List.mem_map.1 hmem
      simp only [Function.comp_def, List.mem_range] at hi he
      rw [div_left_inj' hnK.ne'] at he
      have : (i : K) = m := by linarith
      have : i = m := by exact_mod_cast this
      omega
  have hinit : init (.scalar (.num x)) (.num n) = .ok
      ((List.range n).map fun i : ℕ => (((i : K) + x) / (n : K), 1 / (n : K))) := by
    unfold init initScalar whenConv frequencyConv
    have h1 : ¬ (x > 1 ∨ x < 0) := by
      rintro (h | h) <;> linarith
    have h3 : ¬ ((n : ℚ) ≤ 0) := by
      simp; omega
    simp only [h1, if_false, pyInt_natCast, Int.cast_natCast, not_true_eq_false, h3, ok_bind,
      Int.toNat_natCast, hloop]
  have hget : ∀ i < n, ((List.range n).map fun i : ℕ => (((i : K) + x) / (n : K), 1 / (n : K)))[i]?
      = some (((i : K) + x) / n, 1 / (n : K)) := by
    intro i hi
    simp [hi]
  refine ⟨_, hinit, by simp, ?_, ?_, hget, ?_, ?_⟩
  · unfold Dict.WF Dict.keys
    rw [List.map_map]
    apply List.Nodup.map _ List.nodup_range
    intro i j hij
    simp only [Function.comp_def] at hij
    rw [div_left_inj' hnK.ne'] at hij
    have : (i : K) = j := by linarith
    exact_mod_cast this
  · simp only [Dict.total, Dict.vals, List.map_map, Function.comp_def]
    rw [List.map_const', List.sum_replicate]
    simp only [List.length_range, nsmul_eq_mul]
    exact mul_one_div_cancel hnK.ne'
  · intro i hi e he
    rw [hget i hi, Option.some.injEq] at he
    subst he
    constructor <;> apply div_le_div_of_nonneg_right _ hnK.le <;> linarith
  · intro k hk
    simp only [Dict.keys, List.map_map, List.mem_map, Function.comp_def, List.mem_range] at hk
    obtain ⟨i, hi, rfl⟩ := hk
    have hi' : (i : K) + 1 ≤ n := by exact_mod_cast hi
    have h0 : (0 : K) ≤ i := by positivity
    refine ⟨by positivity, ?_⟩
    rw [div_le_one hnK]; linarith

example : (0 : ℚ) ≤ 1 / 4 ∧ (1 / 4 : ℚ) ≤ 1 ∧ 0 < 12 := by norm_num

/-- **C01** (strings). `Timing('start'/'end', n)` is `Timing(0/1, n)`, and a frequency
code as the first argument means that many mid-period timings whatever the second
argument is. -/
theorem C01_timing_strings (f : Freq) :
    init (.scalar (.str "start")) f = init (.scalar (.num (0 : K))) f ∧
    init (.scalar (.str "end")) f = init (.scalar (.num (1 : K))) f ∧
    ∀ p ∈ [("D", 365), ("W", 52), ("BW", 26), ("SM", 24), ("M", 12), ("BM", 6), ("Q", 4),
        ("SA", 2), ("A", 1)],
      init (.scalar (.str p.1)) f = init (.scalar (.num (1 / 2 : K))) (.num (p.2 : ℕ)) := by
  have hw : whenConv (.num (1 / 2 : K)) = .ok (1 / 2) := by
    rw [whenConv_num, if_neg]
    rintro (h | h) <;> linarith
  have hw0 : whenConv (.num (0 : K)) = .ok 0 := by simp [whenConv]
  have hw1 : whenConv (.num (1 : K)) = .ok 1 := by
    rw [whenConv_num, if_neg]; rintro (h | h) <;> linarith
  have hs : ("start" ∈ Dict.keys frequencyMapping) ↔ False := by decide
  have he : ("end" ∈ Dict.keys frequencyMapping) ↔ False := by decide
  have hws : whenConv (.str "start" : When K) = .ok 0 := rfl
  have hwe : whenConv (.str "end" : When K) = .ok 1 := rfl
  refine ⟨?_, ?_, ?_⟩
  · simp only [init, hs, if_false]
    unfold initScalar; rw [hws, hw0]
  · simp only [init, he, if_false]
    unfold initScalar; rw [hwe, hw1]
  · intro p hp
    have hf : ∀ n : ℕ, 0 < n → frequencyConv (.num n) = .ok (some n) := by
      intro n hn
      unfold frequencyConv
      have h3 : ¬ ((n : ℚ) ≤ 0) := by simp; omega
      simp only [pyInt_natCast, Int.cast_natCast, not_true_eq_false, if_false, h3,
        Int.toNat_natCast]
    have key : p.1 ∈ Dict.keys frequencyMapping ∧
        frequencyConv (.str p.1) = .ok (some p.2) ∧ 0 < p.2 := by
      revert p; decide
    simp only [init, key.1, if_true, whenDefault]
    unfold initScalar
    rw [hw, key.2.1, hf _ key.2.2]

/-- **C01** (rejections). A continuous frequency (`'C'` or `None`), a non-positive or
fractional frequency, an unknown code, or a `when` outside `[0,1]` raises. -/
theorem C01_timing_rejects (x : K) :
    (∃ e, init (.scalar (.num x)) .none = .error e) ∧
    (∃ e, init (.scalar (.str "C") : Arg K) (.num 1) = .error e) ∧
    (∀ q : ℚ, (q ≤ 0 ∨ ¬ ∃ m : ℤ, q = m) → ∃ e, init (.scalar (.num x)) (.num q) = .error e) ∧
    (∀ f, (x < 0 ∨ 1 < x) → init (.scalar (.num x)) f = .error .valueError) ∧
    (∀ f s, s ∉ Dict.keys frequencyMapping → s ≠ "start" → s ≠ "end" →
      ∃ e, init (.scalar (.str s) : Arg K) f = .error e) := by
  have key : ∀ (w : When K) (f : Freq), (∃ e, whenConv w = .error e) ∨
      (frequencyConv f = .ok none) ∨ (∃ e, frequencyConv f = .error e) →
      ∃ e, initScalar w f = .error e := by
    intro w f h
    unfold initScalar
    rcases hw : whenConv w with e | y
    · exact ⟨e, rfl⟩
    · rw [hw] at h
      rcases h with ⟨e, h⟩ | h | ⟨e, h⟩
      · cases h
      · rw [h]; exact ⟨_, rfl⟩
      · rw [h]; exact ⟨_, rfl⟩
  refine ⟨key _ _ (.inr (.inl rfl)), ?_, ?_, ?_, ?_⟩
  · have : "C" ∈ Dict.keys frequencyMapping := by decide
    simp only [init, this, if_true]
    exact key _ _ (.inr (.inl (by decide)))
  · intro q hq
    apply key
    right; right
    unfold frequencyConv
    simp only
    by_cases h1 : q = (pyInt q : ℚ)
    · rcases hq with hq | hq
      · simp only [← h1, hq, not_true_eq_false, if_false, if_true]; exact ⟨_, rfl⟩
      · exact absurd ⟨_, h1⟩ hq
    · simp only [h1, not_false_eq_true, if_true]; exact ⟨_, rfl⟩
  · intro f hx
    have : whenConv (.num x) = .error .valueError := by
      rw [whenConv_num, if_pos]; exact hx.symm
    show initScalar (.num x) f = _
    unfold initScalar; rw [this]; rfl
  · intro f s hs h1 h2
    simp only [init, hs, if_false]
    apply key
    left
    exact ⟨.typeError, by simp [whenConv, h1, h2]⟩

/-! ## C02: `Timing(dict)` -/

/-- The series contains both a positive and a negative amount. -/
def Mixed (w : Dict K K) : Prop := (∃ a ∈ w, 0 < a.2) ∧ (∃ a ∈ w, a.2 < 0)

theorem convertDict_mixed {w : Dict K K} (hm : Mixed w) :
    convertDict w = if Dict.total w = 0 then .ok []
      else if Dict.total w > 0 then accumInflows w else .ok (accumOutflows w) := by
  obtain ⟨⟨a, ha, ha'⟩, ⟨b, hb, hb'⟩⟩ := hm
  have hav : a.2 ∈ Dict.vals w := List.mem_map_of_mem ha
  have hbv : b.2 ∈ Dict.vals w := List.mem_map_of_mem hb
  unfold convertDict
  rw [if_neg (by rintro rfl; simp at ha), if_neg (fun h => ha'.ne' (h _ hav)),
    if_neg (fun h => absurd (h _ hbv) (not_le.2 hb')),
    if_neg (fun h => absurd (h _ hav) (not_le.2 ha'))]

/-- **C02.** Building a `Timing` from any dict succeeds; the weights are
non-negative, the timings are timings of the dict, and the four sign patterns give:
the dict itself (all `≥ 0`, not all zero), the negated dict (all `≤ 0`, not all
zero), uniform weights (nonempty, all zero), and for mixed signs strictly positive
weights, with no timing at all exactly when the amounts balance. -/
theorem C02_timing_of_dict (w : Dict K K) (hw : Dict.WF w) (f : Freq) :
    ∃ r, init (.dict w) f = .ok r ∧ Dict.WF r ∧
      (∀ a ∈ r, 0 ≤ a.2) ∧ (∀ k ∈ Dict.keys r, k ∈ Dict.keys w) ∧
      ((∀ a ∈ w, a.2 = 0) → r = w.map fun a => (a.1, 1)) ∧
      ((∀ a ∈ w, 0 ≤ a.2) → (∃ a ∈ w, a.2 ≠ 0) → r = w) ∧
      ((∀ a ∈ w, a.2 ≤ 0) → (∃ a ∈ w, a.2 ≠ 0) → r = w.map fun a => (a.1, -a.2)) ∧
      (Mixed w → (∀ a ∈ r, 0 < a.2) ∧ (r = [] ↔ Dict.total w = 0)) := by
  have hvals : ∀ P : K → Prop, (∀ v ∈ Dict.vals w, P v) ↔ ∀ a ∈ w, P a.2 := by
    intro P; simp only [Dict.vals, List.forall_mem_map]
  have main : ∃ r, convertDict w = .ok r ∧ Dict.WF r ∧
      (∀ a ∈ r, 0 ≤ a.2) ∧ (∀ k ∈ Dict.keys r, k ∈ Dict.keys w) ∧
      ((∀ a ∈ w, a.2 = 0) → r = w.map fun a => (a.1, 1)) ∧
      ((∀ a ∈ w, 0 ≤ a.2) → (∃ a ∈ w, a.2 ≠ 0) → r = w) ∧
      ((∀ a ∈ w, a.2 ≤ 0) → (∃ a ∈ w, a.2 ≠ 0) → r = w.map fun a => (a.1, -a.2)) ∧
      (Mixed w → (∀ a ∈ r, 0 < a.2) ∧ (r = [] ↔ Dict.total w = 0)) := by
    by_cases h0 : w = []
    · subst h0
      refine ⟨[], by simp [convertDict], by simp, by simp, by simp, by simp, by simp, by simp, ?_⟩
      rintro ⟨⟨a, ha, _⟩, _⟩; simp at ha
    by_cases h1 : ∀ v ∈ Dict.vals w, v = 0
    · have h1' := (hvals _).1 h1
      refine ⟨w.map fun kv => (kv.1, 1), by rw [convertDict, if_neg h0, if_pos h1], ?_, ?_, ?_,
        fun _ => rfl, ?_, ?_, ?_⟩
      · exact Dict.wf_mapVals (fun _ => (1 : K)) hw
      · intro a ha; obtain ⟨b, _, rfl⟩ := List.mem_map.1 ha; exact zero_le_one
      · intro k hk; exact (Dict.keys_mapVals (fun _ => (1 : K)) w) ▸ hk
      · rintro _ ⟨a, ha, h⟩; exact absurd (h1' a ha) h
      · rintro _ ⟨a, ha, h⟩; exact absurd (h1' a ha) h
      · rintro ⟨⟨a, ha, h⟩, _⟩; exact absurd (h1' a ha) h.ne'
    have h1' : ∃ a ∈ w, a.2 ≠ 0 := by
      rw [hvals (fun v => v = 0)] at h1
      simpa only [not_forall, exists_prop] using h1
    by_cases h2 : ∀ v ∈ Dict.vals w, v ≥ 0
    · have h2' := (hvals (fun v => v ≥ 0)).1 h2
      refine ⟨w, by rw [convertDict, if_neg h0, if_neg h1, if_pos h2], hw, h2', fun _ h => h,
        ?_, fun _ _ => rfl, ?_, ?_⟩
      · intro h; obtain ⟨a, ha, h'⟩ := h1'; exact absurd (h a ha) h'
      · intro h; obtain ⟨a, ha, h'⟩ := h1'
        exact absurd (le_antisymm (h a ha) (h2' a ha)) h'
      · rintro ⟨_, ⟨a, ha, h⟩⟩; exact absurd (h2' a ha) (not_le.2 h)
    by_cases h3 : ∀ v ∈ Dict.vals w, v ≤ 0
    · have h3' := (hvals (fun v => v ≤ 0)).1 h3
      refine ⟨Dict.mapVals (fun v => -v) w,
        by rw [convertDict, if_neg h0, if_neg h1, if_neg h2, if_pos h3],
        Dict.wf_mapVals _ hw, ?_, ?_, ?_, ?_, fun _ _ => rfl, ?_⟩
      · intro a ha; obtain ⟨b, hb, rfl⟩ := List.mem_map.1 ha
        exact neg_nonneg.2 (h3' b hb)
      · intro k hk; rwa [Dict.keys_mapVals] at hk
      · intro h; obtain ⟨a, ha, h'⟩ := h1'; exact absurd (h a ha) h'
      · intro h; exact absurd ((hvals (fun v => v ≥ 0)).2 h) h2
      · rintro ⟨⟨a, ha, h⟩, _⟩; exact absurd (h3' a ha) (not_le.2 h)
    have hm : Mixed w := by
      rw [hvals (fun v => v ≥ 0)] at h2
      rw [hvals (fun v => v ≤ 0)] at h3
      push Not at h2 h3
      exact ⟨h3, h2⟩
    have e := convertDict_mixed hm
    have n1 : ¬ ∀ a ∈ w, a.2 = 0 := by
      obtain ⟨a, ha, h'⟩ := h1'; exact fun h => absurd (h a ha) h'
    have n2 : ¬ ∀ a ∈ w, 0 ≤ a.2 := fun h => h2 ((hvals (fun v => v ≥ 0)).2 h)
    have n3 : ¬ ∀ a ∈ w, a.2 ≤ 0 := fun h => h3 ((hvals (fun v => v ≤ 0)).2 h)
    by_cases t0 : Dict.total w = 0
    · rw [if_pos t0] at e
      exact ⟨[], e, by simp, by simp, by simp, fun h => absurd h n1, fun h => absurd h n2,
        fun h => absurd h n3, fun _ => ⟨by simp, by simp [t0]⟩⟩
    by_cases t1 : Dict.total w > 0
    · rw [if_neg t0, if_pos t1] at e
      obtain ⟨r, acc, tally, he, inv⟩ := accumInflows_inv hw
      refine ⟨r, e.trans he, inv.wf, fun a ha => (inv.pos a ha).le, ?_, fun h => absurd h n1,
        fun h => absurd h n2, fun h => absurd h n3, fun _ => ⟨inv.pos, ?_⟩⟩
      · intro k hk
        exact (List.mem_insertionSort _).1 (inv.keys k hk)
      · refine iff_of_false ?_ t0
        rintro rfl
        obtain ⟨⟨a, ha, _⟩, _⟩ := hm
        obtain ⟨k, hk, hkt, hlast⟩ := exists_last_le
          (ks := (Dict.keys w)) (t := (Dict.keys w).foldr max a.1) ⟨a.1, Dict.mem_keys_of_mem ha, by
            generalize Dict.keys w = l
            induction l with
            | nil => simp
            | cons b l ih => exact ih.trans (le_max_right _ _)⟩
        have hall : ∀ j ∈ Dict.keys w, j ≤ (Dict.keys w).foldr max a.1 := by
          generalize Dict.keys w = l
          intro j hj
          induction l with
          | nil => simp at hj
          | cons b l ih =>
            rcases List.mem_cons.1 hj with rfl | hj
            · exact le_max_left _ _
            · exact (ih hj).trans (le_max_right _ _)
        obtain ⟨s, hs, hks, hle⟩ := inv.tight k ((List.mem_insertionSort _).2 hk)
        rw [List.mem_insertionSort] at hs
        have hsk : s = k := le_antisymm (hlast s hs (hall s hs)) hks
        subst hsk
        rw [Dict.cum_eq_total (fun j hj => hlast j hj (hall j hj))] at hle
        simp only [Dict.cum_nil] at hle
        exact absurd hle (not_le.2 t1)
    · rw [if_neg t0, if_neg t1] at e
      obtain ⟨acc, inv⟩ := accumOutflows_inv hw
      refine ⟨_, e, inv.wf, fun a ha => (inv.pos a ha).le, ?_, fun h => absurd h n1,
        fun h => absurd h n2, fun h => absurd h n3, fun _ => ⟨inv.pos, ?_⟩⟩
      · intro k hk
        exact (List.mem_insertionSort _).1 (inv.keys k hk)
      · refine iff_of_false ?_ t0
        intro hnil
        have h1 := inv.accum
        have h2 := inv.nonneg
        simp only [hnil, Dict.total_nil, add_zero] at h1 h2
        have h3 : ((List.insertionSort (· ≤ ·) (Dict.keys w)).map (Dict.val w)).sum
            = Dict.total w := by
          rw [Dict.total_eq_sum_keys hw]
          exact ((List.perm_insertionSort _ _).map _).sum_eq
        rw [h3] at h1
        exact t0 (le_antisymm (not_lt.1 t1) (h1 ▸ h2))
  obtain ⟨r, h, hwf, rest⟩ := main
  refine ⟨r, ?_, hwf, rest⟩
  exact init_dict f h hwf

example : Dict.WF ([(0, 10), (1/2, -5), (1, 5)] : Dict ℚ ℚ) ∧
    Mixed ([(0, 10), (1/2, -5), (1, 5)] : Dict ℚ ℚ) := by
  constructor
  · unfold Dict.WF; decide +kernel
  · exact ⟨⟨(0, 10), by simp, by norm_num⟩, ⟨(1/2, -5), by simp, by norm_num⟩⟩

/-! ## C03: net inflows -/

/-- Withdrawing the amounts `x` from the pool `w` never leaves the pool more
negative, at any time, than it would be (or than zero). -/
def NoOverdraft (w x : Dict K K) : Prop :=
  ∀ t, min 0 (Dict.cum w t) ≤ Dict.cum w t - Dict.cum x t

/-- **C03.** For a mixed-sign series with positive total, the weights of
`Timing(series)` sum to the total, never overdraw the series, and every other
schedule of non-negative withdrawals that never overdraws has withdrawn at most as
much at every point in time. -/
theorem C03_net_inflow_timing (w : Dict K K) (hw : Dict.WF w) (hm : Mixed w)
    (ht : 0 < Dict.total w) (f : Freq) :
    ∃ r, init (.dict w) f = .ok r ∧ Dict.total r = Dict.total w ∧ NoOverdraft w r ∧
      ∀ x : Dict K K, (∀ a ∈ x, 0 ≤ a.2) → NoOverdraft w x →
        ∀ t, Dict.cum x t ≤ Dict.cum r t := by
  obtain ⟨r, acc, tally, he, inv⟩ := accumInflows_inv hw
  have e := convertDict_mixed hm
  rw [if_neg ht.ne', if_pos ht, he] at e
  have hmem : ∀ k, k ∈ (Dict.keys w).insertionSort (· ≤ ·) ↔ k ∈ Dict.keys w :=
    fun k => List.mem_insertionSort _
  have hkw : ∀ k ∈ Dict.keys w, k ∈ (Dict.keys w).insertionSort (· ≤ ·) :=
    fun k hk => (hmem k).2 hk
  have hno : NoOverdraft w r := by
    intro t
    by_cases hex : ∃ k ∈ (Dict.keys w).insertionSort (· ≤ ·), k ≤ t
    · obtain ⟨k, hk, hkt, hlast⟩ := exists_last_le hex
      rw [cum_eq_last hkw hkt hlast, cum_eq_last inv.keys hkt hlast]
      exact inv.feasible k hk
    · push Not at hex
      rw [Dict.cum_eq_zero fun k hk => hex k (hkw k hk),
        Dict.cum_eq_zero fun k hk => hex k (inv.keys k hk)]
      simp
  have hopt : ∀ x : Dict K K, (∀ a ∈ x, 0 ≤ a.2) → NoOverdraft w x →
        ∀ t, Dict.cum x t ≤ Dict.cum r t := by
    intro x hx hxo t
    have hr0 : 0 ≤ Dict.cum r t := Dict.cum_nonneg (fun a ha => (inv.pos a ha).le) t
    by_cases hex : ∃ k ∈ (Dict.keys w).insertionSort (· ≤ ·), k ≤ t
    · obtain ⟨k, hk, hkt, hlast⟩ := exists_last_le hex
      obtain ⟨s, hs, hks, hle⟩ := inv.tight k hk
      rw [cum_eq_last inv.keys hkt hlast] at hr0 ⊢
      by_cases hst : s ≤ t
      · have hsk : s = k := le_antisymm (hlast s hs hst) hks
        subst hsk
        have h1 := hxo t
        rw [cum_eq_last hkw hkt hlast] at h1
        rcases min_cases 0 (Dict.cum w s) with ⟨h2, h3⟩ | ⟨h2, h3⟩ <;> rw [h2] at h1 <;> linarith
      · have h1 := hxo s
        have h4 := Dict.cum_mono hx (not_le.1 hst).le
        rcases min_cases 0 (Dict.cum w s) with ⟨h2, h3⟩ | ⟨h2, h3⟩ <;> rw [h2] at h1 <;> linarith
    · push Not at hex
      have h1 := hxo t
      rw [Dict.cum_eq_zero fun k hk => hex k (hkw k hk)] at h1
      simp only [min_self, zero_sub] at h1
      linarith
  refine ⟨r, ?_, ?_, hno, hopt⟩
  · exact init_dict f e inv.wf
  · -- totals: no overdraft gives ≤, optimality against "withdraw everything at the end" gives ≥
    obtain ⟨⟨a, ha, _⟩, _⟩ := hm
    obtain ⟨T, hT⟩ : ∃ T, ∀ j ∈ Dict.keys w, j ≤ T := by
      generalize Dict.keys w = l
      induction l with
      | nil => exact ⟨0, by simp⟩
      | cons b l ih =>
        obtain ⟨T, hT⟩ := ih
        refine ⟨max b T, ?_⟩
        intro j hj
        rcases List.mem_cons.1 hj with rfl | hj
        · exact le_max_left _ _
        · exact (hT j hj).trans (le_max_right _ _)
    have hTr : ∀ j ∈ Dict.keys r, j ≤ T := fun j hj => hT j ((hmem j).1 (inv.keys j hj))
    have h1 := hno T
    rw [Dict.cum_eq_total hT, Dict.cum_eq_total hTr, min_eq_left ht.le] at h1
    have h2 := hopt [(T, Dict.total w)] (by simpa using ht.le) (by
      intro t
      rw [Dict.cum_cons, Dict.cum_nil]
      by_cases h : T ≤ t
      · simp only [h, if_true]
        rw [Dict.cum_eq_total fun j hj => (hT j hj).trans h]
        simp
      · simp [h]) T
    rw [Dict.cum_eq_total hTr, Dict.cum_cons] at h2
    simp only [le_refl, if_true, Dict.cum_nil, add_zero] at h2
    linarith

/-- The docstring example of `_accum_inflows` (timing.py:258-261), computed. -/
example : init (.dict [(0, 10), (1/2, -5), (1, 5)] : Arg ℚ) (.num 1) = .ok [(0, 5), (1, 5)] := by
  decide +kernel

/-! ## C04: net outflows -/

/-- Contributing the amounts `x` keeps the running balance of `w` non-negative. -/
def Covers (w x : Dict K K) : Prop := ∀ t, 0 ≤ Dict.cum w t + Dict.cum x t

/-- **C04.** For a mixed-sign series with negative total, adding the weights of
`Timing(series)` keeps the running balance non-negative at every time, every other
schedule of non-negative contributions doing so has contributed at least as much by
every point in time, and the weights sum to at least minus the total. -/
theorem C04_net_outflow_timing (w : Dict K K) (hw : Dict.WF w) (hm : Mixed w)
    (ht : Dict.total w < 0) (f : Freq) :
    ∃ r, init (.dict w) f = .ok r ∧ Covers w r ∧ -Dict.total w ≤ Dict.total r ∧
      ∀ x : Dict K K, (∀ a ∈ x, 0 ≤ a.2) → Covers w x →
        ∀ t, Dict.cum r t ≤ Dict.cum x t := by
  obtain ⟨acc, inv⟩ := accumOutflows_inv hw
  have e := convertDict_mixed hm
  rw [if_neg ht.ne, if_neg (not_lt.2 ht.le)] at e
  have hmem : ∀ k, k ∈ (Dict.keys w).insertionSort (· ≤ ·) ↔ k ∈ Dict.keys w :=
    fun k => List.mem_insertionSort _
  have hkw : ∀ k ∈ Dict.keys w, k ∈ (Dict.keys w).insertionSort (· ≤ ·) :=
    fun k hk => (hmem k).2 hk
  have hsum : ((List.insertionSort (· ≤ ·) (Dict.keys w)).map (Dict.val w)).sum
      = Dict.total w := by
    rw [Dict.total_eq_sum_keys hw]
    exact ((List.perm_insertionSort _ _).map _).sum_eq
  refine ⟨_, init_dict f e inv.wf, ?_, ?_, ?_⟩
  · intro t
    by_cases hex : ∃ k ∈ (Dict.keys w).insertionSort (· ≤ ·), k ≤ t
    · obtain ⟨k, hk, hkt, hlast⟩ := exists_last_le hex
      rw [cum_eq_last hkw hkt hlast, cum_eq_last inv.keys hkt hlast]
      exact inv.feasible k hk
    · push Not at hex
      rw [Dict.cum_eq_zero fun k hk => hex k (hkw k hk),
        Dict.cum_eq_zero fun k hk => hex k (inv.keys k hk)]
      simp
  · have h1 := inv.accum
    have h2 := inv.nonneg
    simp only [hsum] at h1 h2
    linarith
  · intro x hx hcov t
    by_cases hex : ∃ k ∈ Dict.keys (accumOutflows w), k ≤ t
    · obtain ⟨k, hk, hkt, hlast⟩ := exists_last_le hex
      rw [cum_eq_last (fun _ h => h) hkt hlast]
      have h1 := inv.tight k hk
      have h2 := hcov k
      have h3 := Dict.cum_mono hx hkt
      simp only at h1
      linarith
    · push Not at hex
      rw [Dict.cum_eq_zero hex]
      exact Dict.cum_nonneg hx t

/-- The docstring example of `_accum_outflows` (timing.py:326-329), computed. -/
example : init (.dict [(0, -10), (1/2, -5), (1, 5)] : Arg ℚ) (.num 1)
    = .ok [(0, 10), (1/2, 5)] := by
  decide +kernel

example : Mixed ([(0, -10), (1/2, -5), (1, 5)] : Dict ℚ ℚ) ∧
    Dict.total ([(0, -10), (1/2, -5), (1, 5)] : Dict ℚ ℚ) < 0 :=
  ⟨⟨⟨(1, 5), by simp, by norm_num⟩, ⟨(0, -10), by simp, by norm_num⟩⟩, by decide +kernel⟩

/-! ## C05: splitting an amount over a timing -/

/-- **C05.** For a timing whose weights have a nonzero sum, `time_series(x)` and
`transactions_from_timing(timing, x)` agree, have exactly the timings of the
`Timing`, give each timing its share of `x`, and sum to `x`.  (Timings without weight lose the
amount: `C05_balanced_timing_loses_money`.) -/
theorem C05_split_conserves (d : Dict K K) (hd : Dict.WF d) (hn : Dict.total d ≠ 0)
    (x : K) :
    ∃ r, timeSeries d x none = .ok r ∧ transactionsFromTiming d x = .ok r ∧
      Dict.keys r = Dict.keys d ∧ Dict.total r = x ∧
      ∀ k, Dict.val r k * Dict.total d = x * Dict.val d k := by
  refine ⟨Dict.mapVals (fun v => x * (v / Dict.total d)) d, ?_, ?_, by simp, ?_, ?_⟩
  · unfold timeSeries
    rw [normalizedCore_none hd hn, ok_bind]
    congr 1
    simp only [Dict.mapVals, List.map_map, Function.comp_def]
    apply List.map_congr_left
    intro a _
    rw [mul_comm]
  · unfold transactionsFromTiming
    simp [hn]
  · have h := total_mapVals_mul d (x / Dict.total d)
    have e : (fun v => x * (v / Dict.total d)) = fun v => v * (x / Dict.total d) := by
      funext v; ring
    rw [e, h]
    field_simp
  · intro k
    unfold Dict.val
    rw [Dict.get?_mapVals]
    cases Dict.get? d k with
    | none => simp
    | some v =>
      simp only [Option.map_some, Option.getD_some]
      field_simp

example : Dict.total ([(0, 1), (1/2, 3)] : Dict ℚ ℚ) ≠ 0 := by decide +kernel

/-- **C05 (every public Timing).** Whenever a `Timing` is built from numbers or from
a dict that is not empty and not perfectly balanced, its weight sum is positive, so
`C05_split_conserves` applies. -/
theorem C05_weights_pos (w : Dict K K) (hw : Dict.WF w) (hne : w ≠ [])
    (hb : Mixed w → Dict.total w ≠ 0) (f : Freq) :
    ∃ r, init (.dict w) f = .ok r ∧ 0 < Dict.total r := by
  obtain ⟨r, h, hwf, hnn, hk, hz, hp, hneg, hmix⟩ := C02_timing_of_dict w hw f
  refine ⟨r, h, ?_⟩
  have hpos : ∀ d : Dict K K, (∀ a ∈ d, 0 ≤ a.2) → (∃ a ∈ d, a.2 ≠ 0) → 0 < Dict.total d := by
    intro d h1 h2
    induction d with
    | nil => simp at h2
    | cons a d ih =>
      rw [Dict.total_cons]
      have ha := h1 a (by simp)
      have h1' : ∀ b ∈ d, 0 ≤ b.2 := fun b hb => h1 b (List.mem_cons_of_mem _ hb)
      have hd := Dict.total_nonneg h1'
      obtain ⟨b, hb, hb'⟩ := h2
      rcases List.mem_cons.1 hb with rfl | hb
      · have := lt_of_le_of_ne ha (Ne.symm hb'); linarith
      · have := ih h1' ⟨b, hb, hb'⟩; linarith
  apply hpos r hnn
  obtain ⟨a0, ha0⟩ := List.exists_mem_of_ne_nil w hne
  by_cases c0 : ∀ a ∈ w, a.2 = 0
  · rw [hz c0]; exact ⟨(a0.1, 1), List.mem_map.2 ⟨a0, ha0, rfl⟩, one_ne_zero⟩
  · push Not at c0
    by_cases c1 : ∀ a ∈ w, 0 ≤ a.2
    · rw [hp c1 c0]; exact c0
    · by_cases c2 : ∀ a ∈ w, a.2 ≤ 0
      · rw [hneg c2 c0]
        obtain ⟨a, ha, ha'⟩ := c0
        exact ⟨(a.1, -a.2), List.mem_map.2 ⟨a, ha, rfl⟩, neg_ne_zero.2 ha'⟩
      · push Not at c1 c2
        have hm : Mixed w := ⟨c2, c1⟩
        obtain ⟨p1, p2⟩ := hmix hm
        have : r ≠ [] := fun h => hb hm (p2.1 h)
        obtain ⟨a, ha⟩ := List.exists_mem_of_ne_nil r this
        exact ⟨a, ha, (p1 a ha).ne'⟩

/-- **C05 (refutation of the unconditional claim).** Paying 100 over the timings of a
perfectly balanced series yields no transactions at all: the 100 disappears. -/
theorem C05_balanced_timing_loses_money :
    ∃ (w : Dict ℚ ℚ), Dict.WF w ∧
      transactionsFromArg (.dict w) 100 = .ok [] ∧ Dict.total ([] : Dict ℚ ℚ) ≠ 100 :=
  ⟨[(0, 5), (1, -5)], by unfold Dict.WF; decide +kernel, by decide +kernel, by decide +kernel⟩

/-! ## C06: normalisation -/

/-- **C06.** For a `Timing` with non-negative weights not all zero, `normalized()`
keeps the timings and proportions, sums to 1 and is idempotent. -/
theorem C06_normalized (d : Dict K K) (hd : Dict.WF d) (hnn : ∀ a ∈ d, 0 ≤ a.2)
    (hn : Dict.total d ≠ 0) :
    ∃ r, normalized d none = .ok r ∧ Dict.keys r = Dict.keys d ∧ Dict.total r = 1 ∧
      (∀ k, Dict.val r k * Dict.total d = Dict.val d k) ∧ normalized r none = .ok r := by
  have hpos : 0 < Dict.total d := lt_of_le_of_ne (Dict.total_nonneg hnn) (Ne.symm hn)
  have step : ∀ d : Dict K K, Dict.WF d → (∀ a ∈ d, 0 ≤ a.2) → 0 < Dict.total d →
      normalized d none = .ok (Dict.mapVals (fun v => v / Dict.total d) d) := by
    intro d hd hnn hpos
    unfold normalized
    rw [normalizedCore_none hd hpos.ne', ok_bind]
    have hwf' := Dict.wf_mapVals (fun v => v / Dict.total d) hd
    obtain ⟨r, h, _, _, _, _, hp, _⟩ :=
      C02_timing_of_dict (Dict.mapVals (fun v => v / Dict.total d) d) hwf' (.num 1)
    rw [h, hp]
    · intro a ha
      obtain ⟨b, hb, rfl⟩ := List.mem_map.1 ha
      exact div_nonneg (hnn b hb) hpos.le
    · by_contra hc
      push Not at hc
      have : Dict.total d = 0 := by
        unfold Dict.total
        apply List.sum_eq_zero
        intro v hv
        obtain ⟨a, ha, rfl⟩ := List.mem_map.1 hv
        have := hc (a.1, a.2 / Dict.total d) (List.mem_map.2 ⟨a, ha, rfl⟩)
        simpa [hpos.ne'] using this
      exact hpos.ne' this
  have htot : Dict.total (Dict.mapVals (fun v => v / Dict.total d) d) = 1 := by
    have e : (fun v => v / Dict.total d) = fun v => v * (Dict.total d)⁻¹ := by
      funext v; rw [div_eq_mul_inv]
    rw [e, total_mapVals_mul]
    exact mul_inv_cancel₀ hn
  refine ⟨_, step d hd hnn hpos, by simp, htot, ?_, ?_⟩
  · intro k
    unfold Dict.val
    rw [Dict.get?_mapVals]
    cases Dict.get? d k with
    | none => simp
    | some v => simp only [Option.map_some, Option.getD_some]; field_simp
  · rw [step _ (Dict.wf_mapVals _ hd) _ (by rw [htot]; exact one_pos), htot]
    · simp [Dict.mapVals]
    · intro a ha
      obtain ⟨b, hb, rfl⟩ := List.mem_map.1 ha
      exact div_nonneg (hnn b hb) hpos.le

/-- **C06** (subset of keys). Selecting distinct keys normalises the selected
sub-series, and a missing key raises `KeyError`. -/
theorem C06_time_series_keys (d : Dict K K) (ks : List K) (hnd : ks.Nodup) (x : K) :
    ((∃ k ∈ ks, k ∉ Dict.keys d) → timeSeries d x (some ks) = .error .keyError) ∧
    ((∀ k ∈ ks, k ∈ Dict.keys d) → (ks.map (Dict.val d)).sum ≠ 0 →
      ∃ r, timeSeries d x (some ks) = .ok r ∧ Dict.keys r = ks ∧ Dict.total r = x ∧
        ∀ k ∈ ks, Dict.val r k * (ks.map (Dict.val d)).sum = x * Dict.val d k) := by
  constructor
  · intro h
    unfold timeSeries normalizedCore
    simp [lookup_mapM_err h]
  · intro h hn
    refine ⟨Dict.mapVals (fun v => v * x)
      (ks.map fun k => (k, Dict.val d k / (ks.map (Dict.val d)).sum)), ?_, ?_, ?_, ?_⟩
    · unfold timeSeries; rw [normalizedCore_some hnd h hn]; rfl
    · simp [Dict.keys, Dict.mapVals, Function.comp_def]
    · rw [total_mapVals_mul]
      have : Dict.total (ks.map fun k => (k, Dict.val d k / (ks.map (Dict.val d)).sum)) = 1 := by
        simp only [Dict.total, Dict.vals, List.map_map, Function.comp_def, div_eq_mul_inv,
          sum_map_mul_right]
        exact mul_inv_cancel₀ hn
      rw [this, one_mul]
    · intro k hk
      have hwf : Dict.WF (ks.map fun k => (k, Dict.val d k / (ks.map (Dict.val d)).sum)) := by
        simpa [Dict.WF, Dict.keys, Function.comp_def] using hnd
      unfold Dict.val at *
      rw [Dict.get?_mapVals, Dict.get?_of_mem hwf (List.mem_map.2 ⟨k, hk, rfl⟩)]
      simp only [Option.map_some, Option.getD_some]
      field_simp

/-! ## C07: adding and subtracting transactions -/

section
variable {κ : Type} [DecidableEq κ]

/-- **C07.** `add_transactions` / `subtract_transactions`: the timings are those of
both operands, amounts are added / subtracted timing by timing, and so are totals. -/
theorem C07_add_subtract_pointwise (b a : Dict κ K) (hb : Dict.WF b) (ha : Dict.WF a) :
    (∀ k, k ∈ Dict.keys (addTransactions b a) ↔ k ∈ Dict.keys b ∨ k ∈ Dict.keys a) ∧
    (∀ k, k ∈ Dict.keys (subtractTransactions b a) ↔ k ∈ Dict.keys b ∨ k ∈ Dict.keys a) ∧
    (∀ k, Dict.val (addTransactions b a) k = Dict.val b k + Dict.val a k) ∧
    (∀ k, Dict.val (subtractTransactions b a) k = Dict.val b k - Dict.val a k) ∧
    Dict.total (addTransactions b a) = Dict.total b + Dict.total a ∧
    Dict.total (subtractTransactions b a) = Dict.total b - Dict.total a ∧
    Dict.WF (addTransactions b a) ∧ Dict.WF (subtractTransactions b a) :=
  ⟨mem_keys_add b a, mem_keys_sub b a, val_add b ha, val_sub b ha, total_add hb a, total_sub hb a,
    wf_add hb a, wf_sub hb a⟩

/-- **C07** (laws). As time series, addition is commutative and associative, and
subtracting `a` after adding `a` restores every amount (and vice versa). -/
theorem C07_add_subtract_laws (a b c : Dict κ K) (ha : Dict.WF a) (hb : Dict.WF b)
    (hc : Dict.WF c) (k : κ) :
    Dict.val (addTransactions a b) k = Dict.val (addTransactions b a) k ∧
    Dict.val (addTransactions (addTransactions a b) c) k
      = Dict.val (addTransactions a (addTransactions b c)) k ∧
    Dict.val (subtractTransactions (addTransactions b a) a) k = Dict.val b k ∧
    Dict.val (addTransactions (subtractTransactions b a) a) k = Dict.val b k ∧
    Dict.val (subtractTransactions a a) k = 0 := by
  rw [val_add _ hb, val_add _ ha, val_add _ hc, val_add _ hb, val_add _ (wf_add hb c),
    val_add _ hc, val_sub _ ha, val_add _ ha, val_add _ ha, val_sub _ ha, val_sub _ ha]
  refine ⟨?_, ?_, ?_, ?_, ?_⟩ <;> ring

example : Dict.WF ([(0, 2), (1, 3)] : Dict ℚ ℚ) ∧ Dict.WF ([(1, 4), (1/2, 3)] : Dict ℚ ℚ) ∧
    addTransactions [(0, 2), (1, 3)] ([(1, 4), (1/2, 3)] : Dict ℚ ℚ)
      = [(0, 2), (1, 7), (1/2, 3)] := by
  unfold Dict.WF; decide +kernel

end

/-! ## C08: `when_conv`, `frequency_conv` -/

/-- **C08.** `when_conv` succeeds exactly on 'start', 'end' and numbers in `[0,1]`,
with the documented values, and is idempotent; `ValueError` for other numbers. -/
theorem C08_when_conv (w : When K) :
    (∀ y, whenConv w = .ok y →
        0 ≤ y ∧ y ≤ 1 ∧ whenConv (.num y) = .ok y ∧
        (w = .num y ∨ (w = .str "start" ∧ y = 0) ∨ (w = .str "end" ∧ y = 1))) ∧
    (∀ x : K, 0 ≤ x → x ≤ 1 → whenConv (.num x) = .ok x) ∧
    (∀ x : K, x < 0 ∨ 1 < x → whenConv (.num x) = .error .valueError) ∧
    whenConv (.str "start") = .ok (0 : K) ∧ whenConv (.str "end") = .ok (1 : K) := by
  have hok : ∀ x : K, 0 ≤ x → x ≤ 1 → whenConv (.num x) = .ok x := by
    intro x h0 h1
    rw [whenConv_num, if_neg]; rintro (h | h) <;> linarith
  refine ⟨?_, hok, ?_, rfl, rfl⟩
  · intro y hy
    cases w with
    | num x =>
      by_cases h : x > 1 ∨ x < 0
      · simp [whenConv, h] at hy
      · simp only [whenConv, h, if_false, Except.ok.injEq] at hy
        subst hy
        push Not at h
        exact ⟨h.2, h.1, hok _ h.2 h.1, .inl rfl⟩
    | str s =>
      by_cases h1 : s = "end"
      · subst h1
        simp only [whenConv, if_true, Except.ok.injEq] at hy
        subst hy
        exact ⟨zero_le_one, le_refl _, hok _ zero_le_one le_rfl, .inr (.inr ⟨rfl, rfl⟩)⟩
      · by_cases h2 : s = "start"
        · subst h2
          simp only [whenConv, h1, if_false, if_true, Except.ok.injEq] at hy
          subst hy
          exact ⟨le_refl _, zero_le_one, hok _ le_rfl zero_le_one, .inr (.inl ⟨rfl, rfl⟩)⟩
        · simp [whenConv, h1, h2] at hy
  · intro x hx
    rw [whenConv_num, if_pos hx.symm]

/-- The documented letter codes (timing.py:422-435), as a specification. -/
def documentedCode : String → Option (Option ℕ)
  | "C" => some none | "D" => some (some 365) | "W" => some (some 52)
  | "BW" => some (some 26) | "SM" => some (some 24) | "M" => some (some 12)
  | "BM" => some (some 6) | "Q" => some (some 4) | "SA" => some (some 2)
  | "A" => some (some 1) | _ => none

/-- **C08** (frequency). `frequency_conv` accepts exactly `None`, the documented codes
and positive integers, with the documented values; every result is positive. -/
theorem C08_frequency_conv (f : Freq) (n : Option ℕ) :
    (frequencyConv f = .ok n ↔
      (f = .none ∧ n = none) ∨ (∃ s, f = .str s ∧ documentedCode s = some n) ∨
      (∃ m : ℕ, 0 < m ∧ f = .num m ∧ n = some m)) ∧
    (frequencyConv f = .ok (some 0) → False) := by
  have hmap : ∀ s, Dict.get? frequencyMapping s = documentedCode s := by
    intro s
    unfold documentedCode
    split <;> simp_all [frequencyMapping, Dict.get?_cons, eq_comm]
  have hiff : ∀ n, (frequencyConv f = .ok n ↔
      (f = .none ∧ n = none) ∨ (∃ s, f = .str s ∧ documentedCode s = some n) ∨
      (∃ m : ℕ, 0 < m ∧ f = .num m ∧ n = some m)) := by
    intro n
    cases f with
    | none => simp [frequencyConv, eq_comm]
    | str s =>
      simp only [frequencyConv, hmap]
      cases h : documentedCode s with
      | none => simp [h]
      | some v => simp [h]
    | num q =>
      simp only [frequencyConv, reduceCtorEq, false_and, false_or, exists_const, Freq.num.injEq]
      by_cases h1 : q = (pyInt q : ℚ)
      · by_cases h2 : q ≤ 0
        · simp only [← h1, not_true_eq_false, if_false, h2, if_true, reduceCtorEq, false_iff]
          rintro ⟨m, hm, rfl, _⟩
          have : (0 : ℚ) < m := by exact_mod_cast hm
          linarith
        · simp only [← h1, not_true_eq_false, if_false, h2, Except.ok.injEq]
          have hpos : 0 < pyInt q := by
            have : (0 : ℚ) < (pyInt q : ℚ) := by rw [← h1]; exact not_le.1 h2
            exact_mod_cast this
          constructor
          · rintro rfl
            refine ⟨(pyInt q).toNat, by omega, ?_, rfl⟩
            conv_lhs => rw [h1]
            have : ((pyInt q).toNat : ℤ) = pyInt q := Int.toNat_of_nonneg hpos.le
            exact_mod_cast this.symm
          · rintro ⟨m, hm, rfl, rfl⟩
            rw [pyInt_natCast]; rfl
      · simp only [h1, not_false_eq_true, if_true, reduceCtorEq, false_iff]
        rintro ⟨m, hm, rfl, _⟩
        exact h1 (by rw [pyInt_natCast]; rfl)
  refine ⟨hiff n, ?_⟩
  intro h
  rcases (hiff _).1 h with ⟨_, h⟩ | ⟨s, _, h⟩ | ⟨m, hm, _, h⟩
  · cases h
  · unfold documentedCode at h
    split at h <;> simp at h
  · simp only [Option.some.injEq] at h; omega

end Forecaster.Timing
