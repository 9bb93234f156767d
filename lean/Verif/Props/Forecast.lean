import Verif.Model.Forecast
import Verif.Props.Timing
import Mathlib.Data.Rat.Floor
import Mathlib.Algebra.Order.Ring.Rat

/-!
# C45, C61: a whole forecast

Specification vocabulary: `scenarioYears initial n` are the years of a scenario of `n`
years (scenario.py `__iter__`); `Clockwork V` says what a user may assume of the components
(sub-forecasts, people, accounts): `next_year()` moves a component on by one year, perhaps
pulling others along but never beyond it, and nothing else changes a component's year.
-/

set_option linter.unusedSectionVars false

namespace Forecaster.Forecast

open Forecaster Forecaster.Timing

variable {K : Type} [Field K] [LinearOrder K] [IsStrictOrderedRing K]
variable {W C : Type}

/-- Specification: the years `initial, …, initial + n - 1`. -/
def scenarioYears (initial : ℤ) (n : ℕ) : List ℤ := (List.range n).map fun (i : ℕ) => initial + i

/-- Specification: the components keep time. -/
structure Clockwork (V : World K W C) : Prop where
  step : ∀ c w w', V.advance c w = .ok w' → V.year c w' = V.year c w + 1
  others : ∀ c w w', V.advance c w = .ok w' → ∀ c',
    V.year c' w ≤ V.year c' w' ∧ V.year c' w' ≤ max (V.year c' w) (V.year c w')
  called : ∀ c w a r, V.call c w a = .ok r → ∀ c', V.year c' r.1 = V.year c' w
  taxed : ∀ w r, V.taxAdjustment w = .ok r → ∀ c', V.year c' r.2 = V.year c' w
  recorded : ∀ w a w', V.record w a = .ok w' → ∀ c', V.year c' w' = V.year c' w

/-- Specification: everything that a `Forecast` advances. -/
def components (V : World K W C) : List C := V.forecasts ++ V.people ++ V.accounts

/-- Specification: tax is refunded and paid at dates with a proper timing. -/
structure Timed (V : World K W C) : Prop where
  refund : ∀ w d, V.refundTiming w = some d → Dict.WF d ∧ Dict.total d ≠ 0
  payment : ∀ w d, V.paymentTiming w = some d → Dict.WF d ∧ Dict.total d ≠ 0

/-- Specification: the timing for a tax adjustment of `x`; at the start of the year if the
tax forecast has none. -/
def taxTiming (V : World K W C) (w : W) (x : K) : Dict K K :=
  if x > 0 then (V.refundTiming w).getD [(0, 1)] else (V.paymentTiming w).getD [(0, 1)]

/-! ### Helper lemmas -/

theorem years_max (initial : ℤ) (n : ℕ) :
    (scenarioYears initial (n + 1)).max? = some (initial + n) := by
  rw [List.max?_eq_some_iff]
  constructor
  · simp [scenarioYears]
  · intro b hb
    simp only [scenarioYears, List.mem_map, List.mem_range] at hb
    obtain ⟨i, hi, rfl⟩ := hb
    have : (i : ℤ) ≤ n := by exact_mod_cast Nat.lt_succ_iff.1 hi
    linarith

theorem catchUp_eq (V : World K W C) (Y : ℤ) (c : C) (n : ℕ) (w : W) :
    catchUp V Y c n w = if V.year c w < Y then
      match n with
      | 0 => .error .recursionError
      | n + 1 => do
        let w' ← V.advance c w
        catchUp V Y c n w'
    else .ok w := by
  rw [catchUp.eq_def]
  cases n <;> rfl

theorem catchUp_inv {V : World K W C} (hV : Clockwork V) {Y : ℤ} {c : C} {n : ℕ} {w w' : W}
    (h : catchUp V Y c n w = .ok w') :
    Y ≤ V.year c w' ∧
      ∀ c', V.year c' w ≤ V.year c' w' ∧ V.year c' w' ≤ max (V.year c' w) Y := by
  induction n generalizing w with
  | zero =>
    rw [catchUp_eq] at h
    split_ifs at h with hy
    cases h
    exact ⟨not_lt.1 hy, fun c' => ⟨le_refl _, le_max_left _ _⟩⟩
  | succ n ih =>
    rw [catchUp_eq] at h
    split_ifs at h with hy
    · simp only at h
      cases ha : V.advance c w with
      | error e => rw [ha] at h; simp at h
      | ok w1 =>
        rw [ha, ok_bind] at h
        obtain ⟨h1, h2⟩ := ih h
        refine ⟨h1, fun c' => ?_⟩
        have h3 := hV.others c w w1 ha c'
        have h4 := hV.step c w w1 ha
        have h5 := h2 c'
        refine ⟨h3.1.trans h5.1, h5.2.trans ?_⟩
        rw [h4] at h3
        have h6 : V.year c' w1 ≤ max (V.year c' w) Y :=
          h3.2.trans (max_le_max (le_refl _) (by omega))
        exact max_le h6 (le_max_right _ _)
    · cases h
      exact ⟨not_lt.1 hy, fun c' => ⟨le_refl _, le_max_left _ _⟩⟩

theorem bringAll_inv {V : World K W C} (hV : Clockwork V) {Y : ℤ} {cs : List C} {w w' : W}
    (h : cs.foldlM (bring V Y) w = .ok w') :
    (∀ c ∈ cs, Y ≤ V.year c w') ∧
      ∀ c', V.year c' w ≤ V.year c' w' ∧ V.year c' w' ≤ max (V.year c' w) Y := by
  induction cs generalizing w with
  | nil =>
    simp only [List.foldlM_nil, except_pure, Except.ok.injEq] at h
    subst h
    exact ⟨by simp, fun c' => ⟨le_refl _, le_max_left _ _⟩⟩
  | cons c cs ih =>
    rw [List.foldlM_cons] at h
    cases hb : bring V Y w c with
    | error e => rw [hb] at h; simp at h
    | ok w1 =>
      rw [hb, ok_bind] at h
      obtain ⟨h1, h2⟩ := catchUp_inv hV hb
      obtain ⟨h3, h4⟩ := ih h
      refine ⟨fun c0 hc0 => ?_, fun c' => ⟨(h2 c').1.trans (h4 c').1, ?_⟩⟩
      · rcases List.mem_cons.1 hc0 with rfl | hc0
        · exact h1.trans (h4 _).1
        · exact h3 c0 hc0
      · exact (h4 c').2.trans (max_le (h2 c').2 (le_max_right _ _))

theorem catchUp_ok {V : World K W C} (hV : Clockwork V) (hok : ∀ c w, ∃ w', V.advance c w = .ok w')
    {Y : ℤ} {c : C} {n : ℕ} {w : W} (hn : (Y - V.year c w).toNat ≤ n) :
    ∃ w', catchUp V Y c n w = .ok w' := by
  induction n generalizing w with
  | zero =>
    rw [catchUp_eq, if_neg (by omega)]
    exact ⟨_, rfl⟩
  | succ n ih =>
    rw [catchUp_eq]
    split_ifs with hy
    · obtain ⟨w1, h1⟩ := hok c w
      have h2 := hV.step c w w1 h1
      obtain ⟨w', hw'⟩ := @ih w1 (by rw [h2]; omega)
      exact ⟨w', by simp only [h1, ok_bind, hw']⟩
    · exact ⟨_, rfl⟩

theorem bringAll_ok {V : World K W C} (hV : Clockwork V) (hok : ∀ c w, ∃ w', V.advance c w = .ok w')
    (Y : ℤ) (cs : List C) (w : W) : ∃ w', cs.foldlM (bring V Y) w = .ok w' := by
  induction cs generalizing w with
  | nil => exact ⟨w, rfl⟩
  | cons c cs ih =>
    obtain ⟨w1, h1⟩ := catchUp_ok hV hok (c := c) (w := w) (Y := Y) (le_refl _)
    obtain ⟨w', h'⟩ := ih w1
    exact ⟨w', by rw [List.foldlM_cons, show bring V Y w c = .ok w1 from h1, ok_bind, h']⟩

theorem calls_inv {V : World K W C} (hV : Clockwork V) {s s' : FS K W}
    (h : callSubforecasts V s = .ok s') :
    s'.year = s.year ∧ ∀ c, V.year c s'.w = V.year c s.w := by
  unfold callSubforecasts at h
  revert h
  generalize V.forecasts = l
  intro h
  induction l generalizing s with
  | nil =>
    simp only [List.foldlM_nil, except_pure, Except.ok.injEq] at h
    subst h; exact ⟨rfl, fun _ => rfl⟩
  | cons c l ih =>
    rw [List.foldlM_cons] at h
    cases hc : V.call c s.w s.available with
    | error e => rw [hc] at h; simp at h
    | ok r =>
      rw [hc] at h
      simp only [ok_bind] at h
      obtain ⟨h1, h2⟩ := ih h
      exact ⟨h1, fun c' => (h2 c').trans (hV.called _ _ _ _ hc c')⟩

theorem nextYear_parts {V : World K W C} {s s' : FS K W} (h : nextYear V s = .ok s') :
    ∃ adj w0 w1 w2, V.taxAdjustment s.w = .ok (adj, w0) ∧ V.record w0 s.available = .ok w1 ∧
      (components V).foldlM (bring V (s.year + 1)) w1 = .ok w2 ∧
      carryoverTax V w2 [(0, 0 + Dict.total s.available)] adj = .ok s'.available ∧
      s'.year = s.year + 1 ∧ s'.w = w2 := by
  unfold nextYear at h
  cases h1 : V.taxAdjustment s.w with
  | error e => rw [h1] at h; simp at h
  | ok r =>
    rw [h1, ok_bind] at h
    cases h2 : V.record r.2 s.available with
    | error e => rw [h2] at h; simp at h
    | ok w1 =>
      rw [h2, ok_bind] at h
      cases h3 : (V.forecasts ++ V.people ++ V.accounts).foldlM (bring V (s.year + 1)) w1 with
      | error e => rw [h3] at h; simp at h
      | ok w2 =>
        rw [h3, ok_bind] at h
        cases h4 : carryoverTax V w2 [(0, 0 + Dict.total s.available)] r.1 with
        | error e => rw [h4] at h; simp at h
        | ok a =>
          rw [h4, ok_bind] at h
          cases h
          exact ⟨r.1, r.2, w1, w2, rfl, h2, h3, h4, rfl, rfl⟩

theorem carry_spec {V : World K W C} (hT : Timed V) (w : W) (b : K) (adj : Option K) :
    ∃ a, carryoverTax V w [(0, b)] adj = .ok a ∧ Dict.WF a ∧
      Dict.total a = b + adj.getD 0 ∧
      ∀ t, Dict.val a t * Dict.total (taxTiming V w (adj.getD 0))
        = (if t = 0 then b else 0) * Dict.total (taxTiming V w (adj.getD 0))
          + adj.getD 0 * Dict.val (taxTiming V w (adj.getD 0)) t := by
  have hwf : Dict.WF [((0 : K), b)] := by simp [Dict.WF]
  have hval : ∀ t : K, Dict.val [((0 : K), b)] t = if t = 0 then b else 0 := by
    intro t
    by_cases h : t = 0
    · subst h; simp [Dict.val, Dict.get?]
    · simp [Dict.val, Dict.get?, h, Ne.symm h]
  have h1 : Dict.WF [((0 : K), (1 : K))] ∧ Dict.total [((0 : K), (1 : K))] ≠ 0 := by
    simp [Dict.WF]
  have main : ∀ (d : Dict K K) (x : K), Dict.WF d → Dict.total d ≠ 0 →
      ∃ a, (do let t ← timeSeries d x none
               .ok (addTransactions [(0, b)] t) : Except PyErr (Dict K K)) = .ok a ∧ Dict.WF a ∧
        Dict.total a = b + x ∧ ∀ t, Dict.val a t * Dict.total d
          = (if t = 0 then b else 0) * Dict.total d + x * Dict.val d t := by
    intro d x hd hn
    obtain ⟨r, hr, -, hk, ht, hv⟩ := C05_split_conserves d hd hn x
    have hrw : Dict.WF r := by unfold Dict.WF; rw [hk]; exact hd
    refine ⟨_, by rw [hr, ok_bind], wf_add hwf r, ?_, fun t => ?_⟩
    · rw [total_add hwf, ht]; simp
    · rw [val_add _ hrw, hval, add_mul, hv]
  cases adj with
  | none => exact ⟨_, rfl, hwf, by simp, fun t => by rw [hval]; simp⟩
  | some x =>
    simp only [carryoverTax, Option.getD_some]
    by_cases hx : x > 0
    · rw [if_pos hx]
      have ht : taxTiming V w x = (V.refundTiming w).getD [(0, 1)] := by simp [taxTiming, hx]
      rw [ht]
      cases hd : V.refundTiming w with
      | none => exact main _ x h1.1 h1.2
      | some d => exact main _ x (hT.refund w d hd).1 (hT.refund w d hd).2
    · rw [if_neg hx]
      have ht : taxTiming V w x = (V.paymentTiming w).getD [(0, 1)] := by simp [taxTiming, hx]
      rw [ht]
      by_cases hx' : x < 0
      · rw [if_pos hx']
        cases hd : V.paymentTiming w with
        | none => exact main _ x h1.1 h1.2
        | some d => exact main _ x (hT.payment w d hd).1 (hT.payment w d hd).2
      · rw [if_neg hx']
        obtain rfl : x = 0 := le_antisymm (not_lt.1 hx) (not_lt.1 hx')
        exact ⟨_, rfl, hwf, by simp, fun t => by rw [hval]; simp⟩

theorem runYears_eq (V : World K W C) (last : ℤ) (n : ℕ) (s : FS K W) :
    runYears V last n s = if s.year < last then
      match n with
      | 0 => .error .recursionError
      | n + 1 => do
        let s1 ← callSubforecasts V s
        let s2 ← nextYear V s1
        runYears V last n s2
    else .ok s := by
  rw [runYears.eq_def]
  cases n <;> rfl

theorem callSubforecasts_year {V : World K W C} {s s' : FS K W}
    (h : callSubforecasts V s = .ok s') : s'.year = s.year := by
  unfold callSubforecasts at h
  revert h
  generalize V.forecasts = l
  intro h
  induction l generalizing s with
  | nil =>
    simp only [List.foldlM_nil, except_pure, Except.ok.injEq] at h
    subst h; rfl
  | cons c l ih =>
    rw [List.foldlM_cons] at h
    cases hc : V.call c s.w s.available with
    | error e => rw [hc] at h; simp at h
    | ok r =>
      rw [hc] at h
      simp only [ok_bind] at h
      have := ih h
      exact this

theorem runYears_trace {V : World K W C} (n : ℕ) {s s' : FS K W} {initial : ℤ}
    (hs : s.year = initial) (h : (do let s1 ← runYears V (initial + n) n s
                                     callSubforecasts V s1) = .ok s') :
    ∃ start fin : ℕ → FS K W, start 0 = s ∧ fin n = s' ∧
      (∀ k ≤ n, callSubforecasts V (start k) = .ok (fin k)) ∧
      (∀ k < n, nextYear V (fin k) = .ok (start (k + 1))) := by
  induction n generalizing s initial with
  | zero =>
    rw [runYears_eq, if_neg (by simp [hs]), ok_bind] at h
    exact ⟨fun _ => s, fun _ => s', rfl, rfl, fun k _ => h, fun k hk => absurd hk (by omega)⟩
  | succ n ih =>
    rw [runYears_eq, if_pos (by rw [hs]; push_cast; omega)] at h
    simp only [bind_assoc] at h
    cases h1 : callSubforecasts V s with
    | error e => rw [h1] at h; simp at h
    | ok s1 =>
      rw [h1, ok_bind] at h
      cases h2 : nextYear V s1 with
      | error e => rw [h2] at h; simp at h
      | ok s2 =>
        rw [h2, ok_bind] at h
        have hy : s2.year = initial + 1 := by
          obtain ⟨_, _, _, _, _, _, _, _, h5, _⟩ := nextYear_parts h2
          rw [h5, callSubforecasts_year h1, hs]
        have h' : (do let s1 ← runYears V (initial + 1 + n) n s2
                      callSubforecasts V s1) = .ok s' := by
          rw [← h]; congr 2; push_cast; ring
        obtain ⟨st, fi, e0, en, ec, ey⟩ := ih hy h'
        refine ⟨fun k => Nat.casesOn k s st, fun k => Nat.casesOn k s1 fi, rfl, en, ?_, ?_⟩
        · intro k hk
          cases k with
          | zero => exact h1
          | succ k => exact ec k (by omega)
        · intro k hk
          cases k with
          | zero => simpa [e0] using h2
          | succ k => exact ey k (by omega)

/-! ### C45 -/

/-- C45 (one new year): advancing a forecast moves it on by exactly one year and brings
*every* sub-forecast, person and account to that year; a component that was already there
(or ahead) stays, and nothing, listed or not, is pushed beyond it. -/
theorem C45_next_year {V : World K W C} (hV : Clockwork V) {s s' : FS K W}
    (h : nextYear V s = .ok s') :
    s'.year = s.year + 1 ∧
      (∀ c ∈ V.forecasts, V.year c s'.w = max (V.year c s.w) s'.year) ∧
      (∀ c ∈ V.people, V.year c s'.w = max (V.year c s.w) s'.year) ∧
      (∀ c ∈ V.accounts, V.year c s'.w = max (V.year c s.w) s'.year) ∧
      (∀ c, V.year c s.w ≤ V.year c s'.w ∧ V.year c s'.w ≤ max (V.year c s.w) s'.year) := by
  obtain ⟨adj, w0, w1, w2, h1, h2, h3, h4, h5, h6⟩ := nextYear_parts h
  obtain ⟨ha, hb⟩ := bringAll_inv hV h3
  have hc : ∀ c, V.year c w1 = V.year c s.w := fun c =>
    (hV.recorded _ _ _ h2 c).trans (hV.taxed _ _ h1 c)
  have hall : ∀ c, V.year c s.w ≤ V.year c s'.w ∧
      V.year c s'.w ≤ max (V.year c s.w) s'.year := by
    intro c
    rw [h6, h5, ← hc c]; exact hb c
  have hmem : ∀ c ∈ components V, V.year c s'.w = max (V.year c s.w) s'.year := by
    intro c hcm
    apply le_antisymm (hall c).2
    apply max_le (hall c).1
    rw [h5, h6]; exact ha c hcm
  refine ⟨h5, fun c h => hmem c ?_, fun c h => hmem c ?_, fun c h => hmem c ?_, hall⟩ <;>
    simp [components, h]

/-- C45 (carryover): after the new year, the money available is last year's net of all
transactions, dated at the start of the year, plus last year's tax adjustment, split over
the dates of the applicable timing; exactly that, at every date and in total. -/
theorem C45_carryover {V : World K W C} (hT : Timed V) {s s' : FS K W} {adj : Option K} {w0 : W}
    (hadj : V.taxAdjustment s.w = .ok (adj, w0)) (h : nextYear V s = .ok s') :
    Dict.WF s'.available ∧
    Dict.total s'.available = Dict.total s.available + adj.getD 0 ∧
    ∀ t, Dict.val s'.available t =
      (if t = 0 then Dict.total s.available else 0)
        + adj.getD 0 * Dict.val (taxTiming V s'.w (adj.getD 0)) t
            / Dict.total (taxTiming V s'.w (adj.getD 0)) := by
  obtain ⟨adj', w0', w1, w2, h1, h2, h3, h4, h5, h6⟩ := nextYear_parts h
  rw [hadj] at h1
  cases h1
  obtain ⟨a, ha, hw, ht, hv⟩ := carry_spec hT w2 (0 + Dict.total s.available) adj
  rw [ha] at h4
  cases h4
  refine ⟨hw, by simpa using ht, fun t => ?_⟩
  have hne : Dict.total (taxTiming V w2 (adj.getD 0)) ≠ 0 := by
    unfold taxTiming
    split_ifs with hx
    · cases hd : V.refundTiming w2 with
      | none => simp
      | some d => exact (hT.refund w2 d hd).2
    · cases hd : V.paymentTiming w2 with
      | none => simp
      | some d => exact (hT.payment w2 d hd).2
  rw [h6]
  have := hv t
  rw [zero_add] at this
  field_simp
  linarith

/-- C45 (the run): constructing a forecast over a scenario of `n + 1` years is exactly: call
the sub-forecasts, new year, …, call the sub-forecasts; it is in year `initial + k` in round
`k` and ends in the scenario's last year.  If the components begin in the scenario's first
year they are in step with the forecast at the start and at the end of every year. -/
theorem C45_run {V : World K W C} (hV : Clockwork V) (initial : ℤ) (n : ℕ) (w : W) {s : FS K W}
    (hstart : ∀ c ∈ components V, V.year c w = initial)
    (h : init V initial (scenarioYears initial (n + 1)) w = .ok s) :
    ∃ start fin : ℕ → FS K W,
      start 0 = ⟨initial, [], w⟩ ∧ fin n = s ∧ s.year = initial + n ∧
      (∀ k ≤ n, callSubforecasts V (start k) = .ok (fin k)) ∧
      (∀ k < n, nextYear V (fin k) = .ok (start (k + 1))) ∧
      (∀ k ≤ n, (start k).year = initial + k ∧ (fin k).year = initial + k ∧
        ∀ c ∈ components V, V.year c (start k).w = initial + k ∧
          V.year c (fin k).w = initial + k) := by
  unfold init at h
  rw [years_max] at h
  simp only [add_sub_cancel_left, Int.toNat_natCast] at h
  obtain ⟨start, fin, h0, hn, hc, hy⟩ :=
    runYears_trace (initial := initial) n (s := ⟨initial, [], w⟩) rfl h
  have key : ∀ k ≤ n, (start k).year = initial + k ∧ (fin k).year = initial + k ∧
        ∀ c ∈ components V, V.year c (start k).w = initial + k ∧
          V.year c (fin k).w = initial + k := by
    intro k
    induction k with
    | zero =>
      intro hk
      obtain ⟨e1, e2⟩ := calls_inv hV (hc 0 hk)
      rw [h0] at e1 e2
      refine ⟨by rw [h0]; simp, by rw [e1]; simp, fun c hm => ⟨?_, ?_⟩⟩
      · rw [h0]; simpa using hstart c hm
      · rw [e2 c]; simpa using hstart c hm
    | succ k ih =>
      intro hk
      obtain ⟨-, i2, i3⟩ := ih (by omega)
      obtain ⟨y1, y2, y3, y4, -⟩ := C45_next_year hV (hy k (by omega))
      obtain ⟨e1, e2⟩ := calls_inv hV (hc (k + 1) hk)
      have y5 : (start (k + 1)).year = initial + ((k + 1 : ℕ) : ℤ) := by
        rw [y1, i2]; push_cast; ring
      have y6 : ∀ c ∈ components V, V.year c (start (k + 1)).w = initial + ((k + 1 : ℕ) : ℤ) := by
        intro c hm
        have : V.year c (start (k + 1)).w = max (V.year c (fin k).w) (start (k + 1)).year := by
          simp only [components, List.mem_append] at hm
          rcases hm with (hm | hm) | hm
          · exact y2 c hm
          · exact y3 c hm
          · exact y4 c hm
        rw [this, (i3 c hm).2, y5]
        push_cast
        exact max_eq_right (by linarith)
      exact ⟨y5, e1.trans y5, fun c hm => ⟨y6 c hm, (e2 c).trans (y6 c hm)⟩⟩
  refine ⟨start, fin, h0, hn, ?_, hc, hy, key⟩
  rw [← hn]; exact (key n (le_refl _)).2.1

/-- C45 (every dollar): over the whole run, the money left at the end is the sum of what the
sub-forecasts did to `available` in each year and of the tax adjustments carried over; nothing
else is created or lost between years. -/
theorem C45_every_dollar {V : World K W C} (hT : Timed V) (n : ℕ)
    (start fin : ℕ → FS K W) (adj : ℕ → Option K) (w0 : ℕ → W)
    (h0 : (start 0).available = [])
    (hadj : ∀ k < n, V.taxAdjustment (fin k).w = .ok (adj k, w0 k))
    (hy : ∀ k < n, nextYear V (fin k) = .ok (start (k + 1))) :
    Dict.total (fin n).available
      = ((List.range (n + 1)).map fun (k : ℕ) =>
          Dict.total (fin k).available - Dict.total (start k).available).sum
        + ((List.range n).map fun (k : ℕ) => (adj k).getD 0).sum := by
  induction n with
  | zero => simp [h0]
  | succ n ih =>
    have h1 := ih (fun k hk => hadj k (by omega)) (fun k hk => hy k (by omega))
    have h2 := (C45_carryover hT (hadj n (by omega)) (hy n (by omega))).2.1
    rw [List.range_succ (n := n + 1), List.range_succ (n := n)] at *
    simp only [List.map_append, List.map_cons, List.map_nil, List.sum_append, List.sum_cons,
      List.sum_nil] at *
    rw [h2]
    linarith

/-- Specification: `log` records the calls of sub-forecasts, each with the year the called
sub-forecast was in, and nothing else touches it. -/
structure Logs (V : World K W C) (log : W → List (ℤ × C)) : Prop where
  called : ∀ c w a r, V.call c w a = .ok r → log r.1 = log w ++ [(V.year c w, c)]
  advanced : ∀ c w w', V.advance c w = .ok w' → log w' = log w
  taxed : ∀ w r, V.taxAdjustment w = .ok r → log r.2 = log w
  recorded : ∀ w a w', V.record w a = .ok w' → log w' = log w

theorem calls_log {V : World K W C} (hV : Clockwork V) {log : W → List (ℤ × C)} (hL : Logs V log)
    {y : ℤ} {s s' : FS K W} (hy : ∀ c ∈ V.forecasts, V.year c s.w = y)
    (h : callSubforecasts V s = .ok s') :
    log s'.w = log s.w ++ V.forecasts.map fun c => (y, c) := by
  unfold callSubforecasts at h
  revert h hy
  generalize V.forecasts = l
  intro hy h
  induction l generalizing s with
  | nil =>
    simp only [List.foldlM_nil, except_pure, Except.ok.injEq] at h
    subst h; simp
  | cons c l ih =>
    rw [List.foldlM_cons] at h
    cases hc : V.call c s.w s.available with
    | error e => rw [hc] at h; simp at h
    | ok r =>
      rw [hc] at h
      simp only [ok_bind] at h
      rw [ih (fun c' hc' => by
        rw [hV.called _ _ _ _ hc c']; exact hy c' (List.mem_cons_of_mem _ hc')) h]
      simp only
      rw [hL.called _ _ _ _ hc, hy c (List.mem_cons_self ..)]
      simp

theorem catchUp_log {V : World K W C} {log : W → List (ℤ × C)} (hL : Logs V log) {Y : ℤ} {c : C}
    {n : ℕ} {w w' : W} (h : catchUp V Y c n w = .ok w') : log w' = log w := by
  induction n generalizing w with
  | zero =>
    rw [catchUp_eq] at h
    split_ifs at h with hy
    cases h; rfl
  | succ n ih =>
    rw [catchUp_eq] at h
    split_ifs at h with hy
    · simp only at h
      cases ha : V.advance c w with
      | error e => rw [ha] at h; simp at h
      | ok w1 =>
        rw [ha, ok_bind] at h
        rw [ih h, hL.advanced _ _ _ ha]
    · cases h; rfl

theorem bringAll_log {V : World K W C} {log : W → List (ℤ × C)} (hL : Logs V log) {Y : ℤ}
    {cs : List C} {w w' : W} (h : cs.foldlM (bring V Y) w = .ok w') : log w' = log w := by
  induction cs generalizing w with
  | nil =>
    simp only [List.foldlM_nil, except_pure, Except.ok.injEq] at h
    subst h; rfl
  | cons c cs ih =>
    rw [List.foldlM_cons] at h
    cases hb : bring V Y w c with
    | error e => rw [hb] at h; simp at h
    | ok w1 =>
      rw [hb, ok_bind] at h
      rw [ih h]; exact catchUp_log hL hb

/-- C45 (schedule): over the run, each of the sub-forecasts is called exactly once in each
year of the scenario, year after year, in the fixed order, and each is in that very year when
it is called; nothing is called for years outside the scenario. -/
theorem C45_schedule {V : World K W C} (hV : Clockwork V) {log : W → List (ℤ × C)}
    (hL : Logs V log) (initial : ℤ) (n : ℕ) (w : W) {s : FS K W}
    (hstart : ∀ c ∈ components V, V.year c w = initial)
    (h : init V initial (scenarioYears initial (n + 1)) w = .ok s) :
    log s.w = log w ++
      (scenarioYears initial (n + 1)).flatMap fun y => V.forecasts.map fun c => (y, c) := by
  obtain ⟨start, fin, h0, hn, -, hc, hy, hk⟩ := C45_run hV initial n w hstart h
  have key : ∀ k ≤ n, log (fin k).w = log w ++
      (scenarioYears initial (k + 1)).flatMap fun y => V.forecasts.map fun c => (y, c) := by
    intro k
    induction k with
    | zero =>
      intro hk0
      rw [calls_log hV hL (y := initial) (fun c hm => by
        rw [h0]; exact hstart c (by simp [components, hm])) (hc 0 hk0), h0]
      simp [scenarioYears]
    | succ k ih =>
      intro hk1
      have h1 := ih (by omega)
      obtain ⟨adj, w0, w1, w2, n1, n2, n3, n4, n5, n6⟩ := nextYear_parts (hy k (by omega))
      have h2 : log (start (k + 1)).w = log (fin k).w := by
        rw [n6, bringAll_log hL n3, hL.recorded _ _ _ n2, hL.taxed _ _ n1]
      rw [calls_log hV hL (y := initial + ((k + 1 : ℕ) : ℤ)) (fun c hm =>
        ((hk (k + 1) hk1).2.2 c (by simp [components, hm])).1) (hc (k + 1) hk1), h2, h1]
      simp only [scenarioYears, List.range_succ (n := k + 1), List.map_append, List.map_cons,
        List.map_nil, List.flatMap_append, List.flatMap_cons, List.flatMap_nil, List.append_nil,
        List.append_assoc]
  rw [← hn]; exact key n (le_refl _)

/-- C45 (completion): if no component raises, the forecast of any scenario with at least one
year is constructed; a scenario without years raises `ValueError`. -/
theorem C45_completes {V : World K W C} (hV : Clockwork V) (hT : Timed V)
    (hcall : ∀ c w a, ∃ r, V.call c w a = .ok r)
    (hadv : ∀ c w, ∃ w', V.advance c w = .ok w')
    (htax : ∀ w, ∃ r, V.taxAdjustment w = .ok r)
    (hrec : ∀ w a, ∃ w', V.record w a = .ok w') (initial : ℤ) (n : ℕ) (w : W) :
    (∃ s, init V initial (scenarioYears initial (n + 1)) w = .ok s) ∧
      init V initial (scenarioYears initial 0) w = .error .valueError := by
  refine ⟨?_, by simp [init, scenarioYears]⟩
  have hcs : ∀ s : FS K W, ∃ s', callSubforecasts V s = .ok s' := by
    intro s
    unfold callSubforecasts
    generalize V.forecasts = l
    induction l generalizing s with
    | nil => exact ⟨s, rfl⟩
    | cons c l ih =>
      obtain ⟨r, hr⟩ := hcall c s.w s.available
      obtain ⟨s', hs'⟩ := ih { s with w := r.1, available := r.2 }
      exact ⟨s', by rw [List.foldlM_cons, hr, ok_bind, ok_bind]; exact hs'⟩
  have hny : ∀ s : FS K W, ∃ s', nextYear V s = .ok s' := by
    intro s
    obtain ⟨r, h1⟩ := htax s.w
    obtain ⟨w1, h2⟩ := hrec r.2 s.available
    obtain ⟨w2, h3⟩ := bringAll_ok hV hadv (s.year + 1) (V.forecasts ++ V.people ++ V.accounts) w1
    obtain ⟨a, h4, -⟩ := carry_spec hT w2 (0 + Dict.total s.available) r.1
    refine ⟨{ year := s.year + 1, available := a, w := w2 }, ?_⟩
    unfold nextYear
    rw [h1, ok_bind, h2, ok_bind, h3, ok_bind, h4, ok_bind]
  have hrun : ∀ n (s : FS K W) (last : ℤ), (last - s.year).toNat ≤ n →
      ∃ s', runYears V last n s = .ok s' := by
    intro n
    induction n with
    | zero => intro s last hl; rw [runYears_eq, if_neg (by omega)]; exact ⟨_, rfl⟩
    | succ n ih =>
      intro s last hl
      rw [runYears_eq]
      split_ifs with hy
      · obtain ⟨s1, h1⟩ := hcs s
        obtain ⟨s2, h2⟩ := hny s1
        have h3 : s2.year = s.year + 1 := by
          obtain ⟨_, _, _, _, _, _, _, _, h5, _⟩ := nextYear_parts h2
          rw [h5, callSubforecasts_year h1]
        obtain ⟨s', h4⟩ := ih s2 last (by rw [h3]; omega)
        exact ⟨s', by simp only [h1, ok_bind, h2, h4]⟩
      · exact ⟨_, rfl⟩
  unfold init
  rw [years_max]
  obtain ⟨s1, h1⟩ := hrun (initial + n - initial).toNat ⟨initial, [], w⟩ (initial + n) (le_refl _)
  obtain ⟨s2, h2⟩ := hcs s1
  exact ⟨s2, by simp only [h1, ok_bind, h2]⟩

/-! ### A concrete forecast meeting the hypotheses

Three components: sub-forecast 0 earns 10 in mid-year, person 1, account 2.  Advancing person
1 pulls account 2 along.  The tax adjustment is the year's `available` total divided by 10,
refunded in two instalments. The state is the three years and the log. -/

def exWorld : World ℚ ((ℕ → ℤ) × List (ℤ × ℕ)) ℕ where
  forecasts := [0, 3]
  people := [1]
  accounts := [2]
  year c w := w.1 c
  advance c w := .ok (fun c' => if c' = c ∨ (c = 1 ∧ c' = 2 ∧ w.1 2 ≤ w.1 1) then w.1 c' + 1
    else w.1 c', w.2)
  call c w a := .ok ((w.1, w.2 ++ [(w.1 c, c)]), addTransactions a [(1 / 2, 10)])
  taxAdjustment w := .ok (some 4, w)
  refundTiming _ := some [(1 / 4, 1), (3 / 4, 3)]
  paymentTiming _ := none
  record w _ := .ok w

theorem exWorld_clockwork : Clockwork exWorld where
  step c w w' h := by
    simp only [exWorld, Except.ok.injEq] at h
    subst h
    simp [exWorld]
  others c w w' h c' := by
    simp only [exWorld, Except.ok.injEq] at h
    subst h
    simp only [exWorld]
    by_cases h1 : c' = c
    · subst h1; simp
    · by_cases h2 : c = 1 ∧ c' = 2 ∧ w.1 2 ≤ w.1 1
      · obtain ⟨rfl, rfl, h3⟩ := h2
        simp only [h3]
        refine ⟨by simp, ?_⟩
        simp only [or_true, and_self, if_true, true_or]
        exact le_max_of_le_right (by omega)
      · simp [h1, h2]
  called c w a r h c' := by simp only [exWorld, Except.ok.injEq] at h; subst h; rfl
  taxed w r h c' := by simp only [exWorld, Except.ok.injEq] at h; subst h; rfl
  recorded w a w' h c' := by simp only [exWorld, Except.ok.injEq] at h; subst h; rfl

theorem exWorld_timed : Timed exWorld where
  refund w d h := by
    simp only [exWorld, Option.some.injEq] at h
    subst h
    unfold Dict.WF
    constructor <;> decide +kernel
  payment w d h := by simp [exWorld] at h

theorem exWorld_logs : Logs exWorld (fun w => w.2) where
  called c w a r h := by simp only [exWorld, Except.ok.injEq] at h; subst h; rfl
  advanced c w w' h := by simp only [exWorld, Except.ok.injEq] at h; subst h; rfl
  taxed w r h := by simp only [exWorld, Except.ok.injEq] at h; subst h; rfl
  recorded w a w' h := by simp only [exWorld, Except.ok.injEq] at h; subst h; rfl

/-- `C45_completes`, `C45_run` and `C45_schedule` apply to it: three years, six calls. -/
example : ∃ s, init exWorld 2000 (scenarioYears 2000 3) (fun _ => 2000, []) = .ok s ∧
    s.year = 2002 ∧
    s.w.2 = [(2000, 0), (2000, 3), (2001, 0), (2001, 3), (2002, 0), (2002, 3)] := by
  obtain ⟨⟨s, hs⟩, -⟩ := C45_completes exWorld_clockwork exWorld_timed (fun c w a => ⟨_, rfl⟩)
    (fun c w => ⟨_, rfl⟩) (fun w => ⟨_, rfl⟩) (fun w a => ⟨_, rfl⟩) 2000 2
    ((fun _ => 2000), [])
  obtain ⟨_, _, _, _, hy, _⟩ := C45_run exWorld_clockwork 2000 2 _ (fun c _ => rfl) hs
  exact ⟨s, hs, by rw [hy]; norm_num,
    by rw [C45_schedule exWorld_clockwork exWorld_logs 2000 2 _ (fun c _ => rfl) hs]; decide⟩

/-- `C45_next_year` and `C45_carryover` apply to it: 20 left over and a refund of 4. -/
example : (nextYear exWorld ⟨2000, [(1 / 2, 20)], (fun _ => 2000, [])⟩).map
      (fun s => (s.year, s.available, (List.range 5).map s.w.1))
    = .ok (2001, [(0, 20), (1 / 4, 1), (3 / 4, 3)], [2001, 2001, 2001, 2001, 2000]) := by
  decide +kernel

/-! ### C61: retirement year and headline figures -/

/-- C61 (retirement year): the retirement year is the year in which the last person retires:
a year in which somebody retires, such that nobody retires in a later one; people without a
retirement date do not count. -/
theorem C61_retirement_year (dates : List (Option Person.Date)) (d : Person.Date)
    (hd : some d ∈ dates) :
    ∃ y, retirementYear dates = .ok y ∧ (∃ e, some e ∈ dates ∧ e.year = y) ∧
      ∀ e, some e ∈ dates → e.year ≤ y := by
  have hmem : ∀ e, e ∈ dates.filterMap id ↔ some e ∈ dates := by intro e; simp
  unfold retirementYear
  cases hf : dates.filterMap id with
  | nil => rw [← hmem d, hf] at hd; simp at hd
  | cons a l =>
    have key : ∀ (l : List Person.Date) (a : Person.Date),
        (l.foldl (fun m d => if m.Before d then d else m) a ∈ a :: l) ∧
        ∀ e ∈ a :: l, e.year ≤ (l.foldl (fun m d => if m.Before d then d else m) a).year := by
      intro l
      induction l with
      | nil => intro a; simp
      | cons b l ih =>
        intro a
        simp only [List.foldl_cons]
        obtain ⟨i1, i2⟩ := ih (if a.Before b then b else a)
        constructor
        · rcases List.mem_cons.1 i1 with h | h
          · rw [h]; split_ifs <;> simp
          · simp [h]
        · intro e he
          have hm := i2 _ (List.mem_cons_self ..)
          rcases List.mem_cons.1 he with rfl | he
          · refine le_trans ?_ hm
            split_ifs with hb
            · rcases hb with hb | hb
              · exact hb.le
              · exact hb.1.le
            · exact le_refl _
          · rcases List.mem_cons.1 he with rfl | he
            · refine le_trans ?_ hm
              split_ifs with hb
              · exact le_refl _
              · by_contra hlt
                exact hb (Or.inl (not_le.1 hlt))
            · exact i2 e (List.mem_cons_of_mem _ he)
    refine ⟨_, rfl, ⟨_, ?_, rfl⟩, fun e he => ?_⟩
    · rw [← hmem, hf]; exact (key l a).1
    · rw [← hmem, hf] at he; exact (key l a).2 e he

/-- C61 (nobody retires): without any retirement date, asking for the retirement year raises
`AttributeError` instead of reporting that there is none. -/
theorem C61_nobody_retires (n : ℕ) :
    retirementYear (List.replicate n none) = .error .attributeError := by
  have : (List.replicate n (none : Option Person.Date)).filterMap id = [] := by
    induction n with
    | zero => rfl
    | succ n ih => simp
  unfold retirementYear
  rw [this]

/-- C61 (savings): what is reported as savings is what income leaves after living expenses,
never negative, so that income is either fully accounted for or exceeded by expenses. -/
theorem C61_savings (income expenses : K) :
    0 ≤ savings income expenses ∧ income ≤ expenses + savings income expenses ∧
      (expenses ≤ income → income = expenses + savings income expenses) ∧
      (income ≤ expenses → savings income expenses = 0) := by
  unfold savings
  refine ⟨le_max_right _ _, ?_, fun h => ?_, fun h => ?_⟩
  · have := le_max_left (income - expenses) 0; linarith
  · rw [max_eq_left (by linarith)]; ring
  · exact max_eq_right (by linarith)

/-- C61 (principal): the principal is the sum of the account balances, in whatever order the
set of accounts is walked. -/
theorem C61_principal (balances other : List K) (h : balances.Perm other) :
    principal balances = balances.sum ∧ principal other = principal balances := by
  have key : ∀ l : List K, principal l = l.sum := by
    intro l
    unfold principal
    rw [List.sum_eq_foldl]
  exact ⟨key _, by rw [key, key, h.sum_eq]⟩

example : retirementYear [none, some ⟨2040, 6, 1, 0⟩, some ⟨2045, 1, 1, 0⟩, none,
    some ⟨2044, 12, 31, 0⟩] = .ok 2045 := by decide
example : savings (50 : ℚ) 60 = 0 ∧ savings (70 : ℚ) 60 = 10 ∧
    principal [(1 : ℚ), 2, 3] = 6 := by decide +kernel

end Forecaster.Forecast
