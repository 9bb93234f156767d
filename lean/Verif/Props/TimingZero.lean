import Verif.Props.Timing
import Mathlib.Algebra.Order.Ring.Rat

/-!
# C06: selected keys, and weights that sum to zero

`normalized(keys)` is `normalized()` of the sub-series with these keys.

The other side of `C06_normalized` and `C06_time_series_keys`: a timing whose (selected) weights sum
to zero cannot be normalised, and nothing can be spread over it.
-/

set_option linter.unusedSectionVars false

namespace Forecaster.Timing

open Forecaster

variable {K : Type} [Field K] [LinearOrder K] [IsStrictOrderedRing K]

theorem normalizedCore_zero {d : Dict K K} {keys : Option (List K)}
    (hne : keys.getD (Dict.keys d) ≠ []) (h : ∀ k ∈ keys.getD (Dict.keys d), k ∈ Dict.keys d)
    (hn : ((keys.getD (Dict.keys d)).map (Dict.val d)).sum = 0) :
    normalizedCore d keys = .error .zeroDivisionError := by
  unfold normalizedCore
  generalize hk : keys.getD (Dict.keys d) = ks at *
  simp only [lookup_mapM h, ok_bind]
  cases ks with
  | nil => exact absurd rfl hne
  | cons k ks =>
    rw [List.foldlM_cons]
    obtain ⟨v, hv⟩ := Option.isSome_iff_exists.1 (Dict.get?_isSome.2 (h k List.mem_cons_self))
    have : normStep d ((k :: ks).map (Dict.val d)).sum [] k = .error .zeroDivisionError := by
      unfold normStep lookup
      rw [hv, hn]
      simp
    rw [this]
    rfl

/-- **C06** (no weight). If the weights - all of them, or those of the selected keys - sum to zero,
`normalized` and `time_series` raise `ZeroDivisionError`, whatever is to be spread; unless there is no
key at all, and then the answer is empty. -/
theorem C06_no_weight (d : Dict K K) (keys : Option (List K))
    (h : ∀ k ∈ keys.getD (Dict.keys d), k ∈ Dict.keys d)
    (hn : ((keys.getD (Dict.keys d)).map (Dict.val d)).sum = 0) :
    (keys.getD (Dict.keys d) ≠ [] → normalized d keys = .error .zeroDivisionError ∧
      ∀ x, timeSeries d x keys = .error .zeroDivisionError) ∧
    (keys.getD (Dict.keys d) = [] → normalized d keys = .ok [] ∧ ∀ x, timeSeries d x keys = .ok []) := by
  constructor
  · intro hne
    have := normalizedCore_zero hne h hn
    unfold normalized timeSeries
    rw [this]
    exact ⟨rfl, fun _ => rfl⟩
  · intro he
    have : normalizedCore d keys = .ok [] := by
      unfold normalizedCore
      rw [he]
      rfl
    unfold normalized timeSeries
    rw [this]
    exact ⟨rfl, fun _ => rfl⟩

/-- **C06** (`normalized(keys)`). For distinct keys of a `Timing` with non-negative weights, not all of
the selected ones zero, `normalized(keys)` has exactly these keys, in the proportions they had, sums to
1, and normalising again changes nothing; with a key that is not there it raises `KeyError`, and only
then. -/
theorem C06_normalized_keys (d : Dict K K) (ks : List K) (hnd : ks.Nodup) (hnn : ∀ a ∈ d, 0 ≤ a.2) :
    ((∀ k ∈ ks, k ∈ Dict.keys d) → (ks.map (Dict.val d)).sum ≠ 0 →
      ∃ r, normalized d (some ks) = .ok r ∧ Dict.keys r = ks ∧ Dict.total r = 1 ∧
        (∀ k ∈ ks, Dict.val r k * (ks.map (Dict.val d)).sum = Dict.val d k) ∧
        normalized r none = .ok r) ∧
    (normalized d (some ks) = .error .keyError ↔ ∃ k ∈ ks, k ∉ Dict.keys d) := by
  have main : (∀ k ∈ ks, k ∈ Dict.keys d) → (ks.map (Dict.val d)).sum ≠ 0 →
      ∃ r, normalized d (some ks) = .ok r ∧ Dict.keys r = ks ∧ Dict.total r = 1 ∧
        (∀ k ∈ ks, Dict.val r k * (ks.map (Dict.val d)).sum = Dict.val d k) ∧
        normalized r none = .ok r := by
    intro h hn
    set e : Dict K K := ks.map fun k => (k, Dict.val d k) with he
    have hk : Dict.keys e = ks := by simp [he, Dict.keys, Function.comp_def]
    have hwf : Dict.WF e := by unfold Dict.WF; rw [hk]; exact hnd
    have hval : ∀ k ∈ ks, Dict.val e k = Dict.val d k := fun k hk => by
      have := Dict.get?_of_mem hwf (k := k) (v := Dict.val d k) (List.mem_map.2 ⟨k, hk, rfl⟩)
      simp only [Dict.val] at this ⊢
      rw [this]
      rfl
    have htot : Dict.total e = (ks.map (Dict.val d)).sum := by
      simp [he, Dict.total, Dict.vals, Function.comp_def]
    have hcore : normalizedCore d (some ks) = normalizedCore e none := by
      rw [normalizedCore_none hwf (by rw [htot]; exact hn), normalizedCore_some hnd h hn, htot]
      simp [he, Dict.mapVals, Function.comp_def]
    have hnorm : normalized d (some ks) = normalized e none := by
      unfold normalized
      rw [hcore]
    obtain ⟨r, h1, h2, h3, h4, h5⟩ := C06_normalized e hwf (by
      intro a ha
      obtain ⟨k, hk, rfl⟩ := List.mem_map.1 ha
      have : Dict.val d k = 0 ∨ ∃ v, (k, v) ∈ d ∧ Dict.val d k = v := by
        unfold Dict.val
        cases hg : Dict.get? d k with
        | none => exact .inl rfl
        | some v => exact .inr ⟨v, Dict.mem_of_get? hg, rfl⟩
      rcases this with h | ⟨v, hm, h⟩
      · exact h.ge
      · exact (hnn _ hm).trans h.ge) (by rw [htot]; exact hn)
    refine ⟨r, hnorm.trans h1, h2.trans hk, h3, fun k hk' => ?_, h5⟩
    have := h4 k
    rw [htot, hval k hk'] at this
    exact this
  refine ⟨main, fun h => ?_, fun h => ?_⟩
  · by_contra hc
    push Not at hc
    by_cases hn : (ks.map (Dict.val d)).sum = 0
    · by_cases hne : ks = []
      · have := ((C06_no_weight d (some ks) hc hn).2 hne).1
        rw [this] at h
        cases h
      · have := ((C06_no_weight d (some ks) hc hn).1 hne).1
        rw [this] at h
        cases h
    · obtain ⟨r, hr, -⟩ := main hc hn
      rw [hr] at h
      cases h
  · unfold normalized normalizedCore
    simp [lookup_mapM_err h]

/-- A deposit and a withdrawal of the same weight. -/
example : (Dict.keys ([(0, 1), (1 / 2, -1)] : Dict ℚ ℚ) ≠ []) ∧
    normalized ([(0, 1), (1 / 2, -1)] : Dict ℚ ℚ) none = .error .zeroDivisionError ∧
    timeSeries ([(0, 1), (1 / 2, -1)] : Dict ℚ ℚ) 10 none = .error .zeroDivisionError ∧
    timeSeries ([(0, 1), (1 / 2, -1)] : Dict ℚ ℚ) 10 (some [0]) = .ok [(0, 10)] := by
  decide +kernel

/-- Two of three paydays. -/
example : normalized ([(0, 1), (1 / 2, 3), (1, 4)] : Dict ℚ ℚ) (some [1 / 2, 0]) =
      .ok [(1 / 2, 3 / 4), (0, 1 / 4)] ∧
    normalized ([(0, 1), (1 / 2, 3), (1, 4)] : Dict ℚ ℚ) (some [1 / 3]) = .error .keyError := by
  decide +kernel

end Forecaster.Timing
