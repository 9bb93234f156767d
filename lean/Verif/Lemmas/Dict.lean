import Verif.Model.Dict
import Mathlib.Tactic.Ring
import Mathlib.Tactic.Linarith
import Mathlib.Tactic.Abel
import Mathlib.Algebra.Order.BigOperators.Group.List

/-! Helper lemmas about the dict model. -/

namespace Forecaster.Dict

universe u v
variable {κ : Type u} {ν : Type v}

@[simp] theorem keys_nil : keys ([] : Dict κ ν) = [] := rfl
@[simp] theorem keys_cons (a : κ × ν) (d : Dict κ ν) : keys (a :: d) = a.1 :: keys d := rfl
@[simp] theorem keys_append (d e : Dict κ ν) : keys (d ++ e) = keys d ++ keys e := by
  simp [keys]
@[simp] theorem vals_nil : vals ([] : Dict κ ν) = [] := rfl
@[simp] theorem vals_cons (a : κ × ν) (d : Dict κ ν) : vals (a :: d) = a.2 :: vals d := rfl
@[simp] theorem keys_mapVals {μ : Type*} (f : ν → μ) (d : Dict κ ν) :
    keys (mapVals f d) = keys d := by
  simp [keys, mapVals, Function.comp_def]

@[simp] theorem wf_nil : WF ([] : Dict κ ν) := by simp [WF]

theorem wf_cons {a : κ × ν} {d : Dict κ ν} : WF (a :: d) ↔ a.1 ∉ keys d ∧ WF d := by
  simp [WF]

theorem wf_mapVals {μ : Type*} (f : ν → μ) {d : Dict κ ν} (h : WF d) : WF (mapVals f d) := by
  simpa [WF] using h

theorem mem_keys_of_mem {a : κ × ν} {d : Dict κ ν} (h : a ∈ d) : a.1 ∈ keys d :=
  List.mem_map_of_mem h

theorem wf_filter {p : κ × ν → Bool} {d : Dict κ ν} (h : WF d) : WF (d.filter p) := by
  unfold WF keys at *
  exact h.sublist (List.Sublist.map _ List.filter_sublist)

section dec
variable [DecidableEq κ]

@[simp] theorem get?_nil (k : κ) : get? ([] : Dict κ ν) k = none := rfl

theorem get?_cons (a : κ × ν) (d : Dict κ ν) (k : κ) :
    get? (a :: d) k = if a.1 = k then some a.2 else get? d k := by
  cases a; rfl

theorem get?_eq_none {d : Dict κ ν} {k : κ} : get? d k = none ↔ k ∉ keys d := by
  induction d with
  | nil => simp
  | cons a d ih =>
    rw [get?_cons]
    by_cases h : a.1 = k
    · simp [h]
    · simp [h, ih, Ne.symm h]

theorem get?_isSome {d : Dict κ ν} {k : κ} : (get? d k).isSome ↔ k ∈ keys d := by
  rw [← not_iff_not, ← get?_eq_none]
  simp

theorem mem_of_get? {d : Dict κ ν} {k : κ} {v : ν} (h : get? d k = some v) : (k, v) ∈ d := by
  induction d with
  | nil => simp at h
  | cons a d ih =>
    rw [get?_cons] at h
    by_cases hk : a.1 = k
    · simp only [hk, if_true, Option.some.injEq] at h
      subst hk; subst h; simp
    · simp only [hk, if_false] at h
      exact List.mem_cons_of_mem _ (ih h)

theorem get?_of_mem {d : Dict κ ν} (hd : WF d) {k : κ} {v : ν} (h : (k, v) ∈ d) :
    get? d k = some v := by
  induction d with
  | nil => simp at h
  | cons a d ih =>
    rw [get?_cons]
    rw [wf_cons] at hd
    rcases List.mem_cons.1 h with rfl | h'
    · simp
    · have : a.1 ≠ k := by
        rintro rfl
        exact hd.1 (mem_keys_of_mem (a := (a.1, v)) h')
      simp [this, ih hd.2 h']

theorem get?_iff {d : Dict κ ν} (hd : WF d) {k : κ} {v : ν} :
    get? d k = some v ↔ (k, v) ∈ d := ⟨mem_of_get?, get?_of_mem hd⟩

theorem mem_keys_iff {d : Dict κ ν} {k : κ} : k ∈ keys d ↔ ∃ v, get? d k = some v := by
  rw [← get?_isSome, Option.isSome_iff_exists]

theorem get?_set (d : Dict κ ν) (k : κ) (v : ν) (k' : κ) :
    get? (set d k v) k' = if k = k' then some v else get? d k' := by
  induction d with
  | nil => simp [set, get?_cons]
  | cons a d ih =>
    obtain ⟨ka, va⟩ := a
    by_cases h : ka = k
    · subst h
      simp only [set, if_true, get?_cons]
      by_cases h' : ka = k' <;> simp [h']
    · simp only [set, h, if_false, get?_cons, ih]
      by_cases h' : ka = k'
      · subst h'; simp [Ne.symm h]
      · simp [h']

@[simp] theorem get?_set_self (d : Dict κ ν) (k : κ) (v : ν) : get? (set d k v) k = some v := by
  simp [get?_set]

theorem get?_set_ne (d : Dict κ ν) {k k' : κ} (v : ν) (h : k ≠ k') :
    get? (set d k v) k' = get? d k' := by simp [get?_set, h]

theorem keys_set_of_mem {d : Dict κ ν} {k : κ} (v : ν) (h : k ∈ keys d) :
    keys (set d k v) = keys d := by
  induction d with
  | nil => simp at h
  | cons a d ih =>
    obtain ⟨ka, va⟩ := a
    by_cases hk : ka = k
    · simp [set, hk]
    · simp only [keys_cons, List.mem_cons] at h
      rcases h with h | h
      · exact absurd h.symm hk
      · simp [set, hk, ih h]

theorem set_of_not_mem {d : Dict κ ν} {k : κ} (v : ν) (h : k ∉ keys d) :
    set d k v = d ++ [(k, v)] := by
  induction d with
  | nil => simp [set]
  | cons a d ih =>
    obtain ⟨ka, va⟩ := a
    simp only [keys_cons, List.mem_cons, not_or] at h
    simp [set, Ne.symm h.1, ih h.2]

theorem keys_set_of_not_mem {d : Dict κ ν} {k : κ} (v : ν) (h : k ∉ keys d) :
    keys (set d k v) = keys d ++ [k] := by
  rw [set_of_not_mem v h]; simp

theorem mem_keys_set {d : Dict κ ν} {k k' : κ} {v : ν} :
    k' ∈ keys (set d k v) ↔ k' = k ∨ k' ∈ keys d := by
  rw [← get?_isSome, get?_set, ← get?_isSome]
  by_cases h : k = k'
  · simp [h]
  · simp [h, Ne.symm h]

theorem wf_set {d : Dict κ ν} (h : WF d) (k : κ) (v : ν) : WF (set d k v) := by
  by_cases hk : k ∈ keys d
  · unfold WF; rw [keys_set_of_mem v hk]; exact h
  · unfold WF
    rw [keys_set_of_not_mem v hk, List.nodup_append]
    refine ⟨h, by simp, ?_⟩
    intro a ha b hb hab
    simp only [List.mem_singleton] at hb
    subst hb; subst hab; exact hk ha

theorem wf_update {d : Dict κ ν} (h : WF d) (e : Dict κ ν) : WF (update d e) := by
  unfold update
  induction e generalizing d with
  | nil => simpa
  | cons a e ih => exact ih (wf_set h _ _)

theorem get?_update (d e : Dict κ ν) (he : WF e) (k : κ) :
    get? (update d e) k = (get? e k).or (get? d k) := by
  unfold update
  induction e generalizing d with
  | nil => simp
  | cons a e ih =>
    rw [wf_cons] at he
    rw [List.foldl_cons, ih _ he.2, get?_set, get?_cons]
    by_cases h : a.1 = k
    · subst h
      rw [get?_eq_none.2 he.1]; simp
    · simp [h]

theorem update_nil_left {e : Dict κ ν} (he : WF e) : update [] e = e := by
  suffices h : ∀ d : Dict κ ν, WF (d ++ e) → update d e = d ++ e by simpa using h [] (by simpa)
  unfold update
  clear he
  induction e with
  | nil => simp
  | cons a e ih =>
    intro d hd
    rw [List.foldl_cons, set_of_not_mem, ih]
    · simp
    · simpa using hd
    · unfold WF at hd
      rw [keys_append, keys_cons, List.nodup_append] at hd
      intro hm
      exact hd.2.2 _ hm _ (by simp) rfl

theorem get?_mapVals {μ : Type*} (f : ν → μ) (d : Dict κ ν) (k : κ) :
    get? (mapVals f d) k = (get? d k).map f := by
  induction d with
  | nil => simp [mapVals]
  | cons a d ih =>
    simp only [mapVals, List.map_cons, get?_cons]
    by_cases h : a.1 = k
    · simp [h]
    · simp only [h, if_false]; exact ih

theorem get?_del {d : Dict κ ν} (hd : WF d) (k k' : κ) :
    get? (del d k) k' = if k = k' then none else get? d k' := by
  induction d with
  | nil => simp [del]
  | cons a d ih =>
    obtain ⟨ka, va⟩ := a
    rw [wf_cons] at hd
    by_cases h : ka = k
    · subst h
      simp only [del, if_true, get?_cons]
      by_cases h' : ka = k'
      · subst h'; simp [get?_eq_none.2 hd.1]
      · simp [h']
    · simp only [del, h, if_false, get?_cons, ih hd.2]
      by_cases h' : ka = k'
      · subst h'; simp [Ne.symm h]
      · simp [h']

theorem del_sublist (d : Dict κ ν) (k : κ) : (del d k).Sublist d := by
  induction d with
  | nil => simp [del]
  | cons a d ih =>
    obtain ⟨ka, va⟩ := a
    by_cases h : ka = k
    · simp [del, h]
    · simp [del, h, ih]

theorem wf_del {d : Dict κ ν} (hd : WF d) (k : κ) : WF (del d k) := by
  unfold WF keys at *
  exact hd.sublist (List.Sublist.map _ (del_sublist d k))

end dec

section sums
variable [AddCommGroup ν]

@[simp] theorem total_nil : total ([] : Dict κ ν) = 0 := rfl
@[simp] theorem total_cons (a : κ × ν) (d : Dict κ ν) : total (a :: d) = a.2 + total d := by
  simp [total]
@[simp] theorem total_append (d e : Dict κ ν) : total (d ++ e) = total d + total e := by
  simp [total, vals]

theorem total_perm {d e : Dict κ ν} (h : d.Perm e) : total d = total e :=
  (h.map _).sum_eq

theorem val_nil [DecidableEq κ] (k : κ) : val ([] : Dict κ ν) k = 0 := rfl

theorem val_set [DecidableEq κ] (d : Dict κ ν) (k : κ) (v : ν) (k' : κ) :
    val (set d k v) k' = if k = k' then v else val d k' := by
  unfold val; rw [get?_set]; split <;> simp

theorem val_of_not_mem [DecidableEq κ] {d : Dict κ ν} {k : κ} (h : k ∉ keys d) : val d k = 0 := by
  unfold val; rw [get?_eq_none.2 h]; rfl

theorem get?_eq_some_val [DecidableEq κ] {d : Dict κ ν} {k : κ} (h : k ∈ keys d) :
    get? d k = some (val d k) := by
  obtain ⟨v, hv⟩ := mem_keys_iff.1 h
  simp [val, hv]

/-- The total after one assignment. -/
theorem total_set [DecidableEq κ] {d : Dict κ ν} (_hd : WF d) (k : κ) (v : ν) :
    total (set d k v) = total d - val d k + v := by
  induction d with
  | nil => simp [set, val_nil]
  | cons a d ih =>
    obtain ⟨ka, va⟩ := a
    rw [wf_cons] at _hd
    by_cases h : ka = k
    · subst h
      simp only [set, if_true, total_cons, val, get?_cons, Option.getD_some]
      abel
    · simp only [set, h, if_false, total_cons, ih _hd.2, val, get?_cons]
      abel

section order
variable [LinearOrder κ]

@[simp] theorem cum_nil (t : κ) : cum ([] : Dict κ ν) t = 0 := rfl

theorem cum_cons (a : κ × ν) (d : Dict κ ν) (t : κ) :
    cum (a :: d) t = (if a.1 ≤ t then a.2 else 0) + cum d t := by
  unfold cum
  by_cases h : a.1 ≤ t <;> simp [h]

theorem cum_append (d e : Dict κ ν) (t : κ) : cum (d ++ e) t = cum d t + cum e t := by
  unfold cum; simp

theorem cum_perm {d e : Dict κ ν} (h : d.Perm e) (t : κ) : cum d t = cum e t :=
  total_perm (h.filter _)

theorem cum_eq_total {d : Dict κ ν} {t : κ} (h : ∀ k ∈ keys d, k ≤ t) : cum d t = total d := by
  unfold cum
  rw [List.filter_eq_self.2]
  intro a ha
  simpa using h _ (mem_keys_of_mem ha)

theorem cum_eq_zero {d : Dict κ ν} {t : κ} (h : ∀ k ∈ keys d, t < k) : cum d t = 0 := by
  unfold cum
  rw [List.filter_eq_nil_iff.2]
  · rfl
  · intro a ha
    simpa using h _ (mem_keys_of_mem ha)

theorem cum_congr {d : Dict κ ν} {s t : κ} (h : ∀ k ∈ keys d, k ≤ s ↔ k ≤ t) :
    cum d s = cum d t := by
  unfold cum
  congr 1
  apply List.filter_congr
  intro a ha
  simpa using h _ (mem_keys_of_mem ha)

theorem cum_set {d : Dict κ ν} (hd : WF d) (k : κ) (v : ν) (t : κ) :
    cum (set d k v) t = cum d t + (if k ≤ t then v - val d k else 0) := by
  induction d with
  | nil => simp [set, cum_cons, val_nil]
  | cons a d ih =>
    obtain ⟨ka, va⟩ := a
    rw [wf_cons] at hd
    by_cases h : ka = k
    · subst h
      simp only [set, if_true, cum_cons, val, get?_cons, Option.getD_some]
      by_cases h' : ka ≤ t <;> simp [h'] ; abel
    · simp only [set, h, if_false, cum_cons, ih hd.2, val, get?_cons]
      abel

end order

end sums

section ordered
variable [AddCommGroup ν] [LinearOrder ν] [IsOrderedAddMonoid ν] [LinearOrder κ]

omit [LinearOrder κ] in
theorem total_nonneg {d : Dict κ ν} (h : ∀ a ∈ d, 0 ≤ a.2) : 0 ≤ total d := by
  unfold total
  apply List.sum_nonneg
  intro x hx
  obtain ⟨a, ha, rfl⟩ := List.mem_map.1 hx
  exact h a ha

theorem cum_nonneg {d : Dict κ ν} (h : ∀ a ∈ d, 0 ≤ a.2) (t : κ) : 0 ≤ cum d t :=
  total_nonneg fun a ha => h a (List.mem_of_mem_filter ha)

theorem cum_mono {d : Dict κ ν} (h : ∀ a ∈ d, 0 ≤ a.2) {s t : κ} (hst : s ≤ t) :
    cum d s ≤ cum d t := by
  induction d with
  | nil => simp
  | cons a d ih =>
    rw [cum_cons, cum_cons]
    have h1 := ih fun b hb => h b (List.mem_cons_of_mem _ hb)
    have h2 := h a (by simp)
    apply add_le_add _ h1
    by_cases h3 : a.1 ≤ s
    · simp [h3, h3.trans hst]
    · simp only [h3, if_false]; split <;> simp [h2]

end ordered

end Forecaster.Dict
