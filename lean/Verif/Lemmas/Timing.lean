import Verif.Lemmas.Dict
import Verif.Model.Timing

/-! Helper lemmas for `Verif/Props/Timing.lean`. -/

set_option linter.unusedSectionVars false

namespace Forecaster

namespace Dict
variable {κ ν : Type}

theorem eq_map_val [DecidableEq κ] [AddCommGroup ν] {d : Dict κ ν} (hd : WF d) :
    d = (keys d).map fun k => (k, val d k) := by
  unfold keys
  rw [List.map_map]
  conv_lhs => rw [← List.map_id d]
  apply List.map_congr_left
  intro a ha
  have : get? d a.1 = some a.2 := get?_of_mem hd ha
  simp [val, this]

theorem total_eq_sum_keys [DecidableEq κ] [AddCommGroup ν] {d : Dict κ ν} (hd : WF d) :
    total d = ((keys d).map (val d)).sum := by
  conv_lhs => rw [eq_map_val hd]
  simp [total, vals, Function.comp_def]

theorem cum_eq_sum_keys [LinearOrder κ] [AddCommGroup ν] {d : Dict κ ν} (hd : WF d) (t : κ) :
    cum d t = (((keys d).filter fun k => decide (k ≤ t)).map (val d)).sum := by
  unfold cum
  conv_lhs => rw [eq_map_val hd]
  rw [List.filter_map]
  simp [total, vals, Function.comp_def]

theorem cum_eq_sum_of_perm [LinearOrder κ] [AddCommGroup ν] {d : Dict κ ν} (hd : WF d)
    {ks : List κ} (hp : ks.Perm (keys d)) (t : κ) :
    cum d t = ((ks.filter fun k => decide (k ≤ t)).map (val d)).sum := by
  rw [cum_eq_sum_keys hd]
  exact (((hp.filter _).map _).sum_eq).symm

end Dict

namespace Timing

variable {K : Type} [Field K] [LinearOrder K] [IsStrictOrderedRing K]

/-- the sorted keys are strictly increasing -/
theorem sortedKeys_lt {w : Dict K K} (hw : Dict.WF w) :
    ((Dict.keys w).insertionSort (· ≤ ·)).Pairwise (· < ·) := by
  have h1 := List.pairwise_insertionSort (r := (· ≤ · : K → K → Prop)) (Dict.keys w)
  have h2 : ((Dict.keys w).insertionSort (· ≤ ·)).Nodup :=
    (List.perm_insertionSort (· ≤ ·) (Dict.keys w)).nodup_iff.2 hw
  exact (h1.and h2).imp fun ⟨a, b⟩ => lt_of_le_of_ne a b

theorem cum_at_split {w : Dict K K} (hw : Dict.WF w) {pre post : List K} {k : K}
    (hp : (pre ++ k :: post).Perm (Dict.keys w))
    (hs : (pre ++ k :: post).Pairwise (· < ·)) :
    Dict.cum w k = (pre.map (Dict.val w)).sum + Dict.val w k := by
  rw [Dict.cum_eq_sum_of_perm hw hp]
  rw [List.pairwise_append] at hs
  obtain ⟨h1, h2, h3⟩ := hs
  rw [List.pairwise_cons] at h2
  rw [List.filter_append, List.filter_eq_self.2, List.filter_cons_of_pos,
    List.filter_eq_nil_iff.2]
  · simp
  · intro a ha; simpa using h2.1 a ha
  · simp
  · intro a ha; simpa using (h3 a ha k (by simp)).le

theorem accum_loop {w : Dict K K} (hw : Dict.WF w) {pre post : List K}
    (hp : (pre ++ post).Perm (Dict.keys w)) (hs : (pre ++ post).Pairwise (· < ·)) :
    post.foldl (accumStep w)
      (pre.map (fun k => (k, Dict.cum w k)), (pre.map (Dict.val w)).sum)
    = ((pre ++ post).map (fun k => (k, Dict.cum w k)), ((pre ++ post).map (Dict.val w)).sum) := by
  induction post generalizing pre with
  | nil => simp
  | cons k post ih =>
    have e : accumStep w (pre.map (fun k => (k, Dict.cum w k)), (pre.map (Dict.val w)).sum) k
        = ((pre ++ [k]).map (fun k => (k, Dict.cum w k)),
           ((pre ++ [k]).map (Dict.val w)).sum) := by
      unfold accumStep
      have hnot : k ∉ Dict.keys (pre.map fun k => (k, Dict.cum w k)) := by
        rw [List.pairwise_append] at hs
        simp only [Dict.keys, List.map_map, Function.comp_def, List.map_id']
        intro hk
        exact lt_irrefl _ (hs.2.2 k hk k (by simp))
      simp only
      rw [Dict.set_of_not_mem _ hnot, cum_at_split hw hp hs |>.symm]
      have := cum_at_split hw hp hs
      simp [this]
    rw [List.foldl_cons, e, ih]
    · simp
    · simpa using hp
    · simpa using hs

/-- Loop invariant of the second loop of `_accum_inflows`. -/
structure InflowInv (w : Dict K K) (ks pre : List K) (st : Dict K K × Dict K K × K) : Prop where
  accum : st.2.1 = ks.map fun k => (k, Dict.cum w k - Dict.cum st.1 k)
  wf : Dict.WF st.1
  pos : ∀ a ∈ st.1, 0 < a.2
  keys : ∀ k ∈ Dict.keys st.1, k ∈ pre
  feasible : ∀ k ∈ ks, min 0 (Dict.cum w k) ≤ Dict.cum w k - Dict.cum st.1 k
  tight : ∀ t ∈ pre, ∃ s ∈ ks, t ≤ s ∧ Dict.cum w s ≤ Dict.cum st.1 t

theorem inflow_step_inv {w : Dict K K} {ks pre post : List K} {k : K}
    {st : Dict K K × Dict K K × K} (hks : ks = pre ++ k :: post)
    (hs : ks.Pairwise (· < ·)) (h : InflowInv w ks pre st) :
    ∃ st', inflowStep st k = .ok st' ∧ InflowInv w ks (pre ++ [k]) st' := by
  have hkks : k ∈ ks := by simp [hks]
  have hprelt : ∀ j ∈ pre, j < k := by
    intro j hj
    rw [hks, List.pairwise_append] at hs
    exact hs.2.2 j hj k (by simp)
  have hknot : k ∉ Dict.keys st.1 := fun hk => lt_irrefl _ (hprelt k (h.keys k hk))
  unfold inflowStep
  rcases hm : (Dict.vals (st.2.1.filter fun kv => decide (kv.1 ≥ k))).min? with _ | m
  · exfalso
    rw [List.min?_eq_none_iff] at hm
    have : (k, Dict.cum w k - Dict.cum st.1 k) ∈ st.2.1.filter fun kv => decide (kv.1 ≥ k) := by
      rw [List.mem_filter]
      refine ⟨?_, by simp⟩
      rw [h.accum]; exact List.mem_map.2 ⟨k, hkks, rfl⟩
    have := List.mem_map_of_mem (f := Prod.snd) this
    unfold Dict.vals at hm
    rw [hm] at this; simp at this
  · rw [List.min?_eq_some_iff] at hm
    obtain ⟨hmem, hle⟩ := hm
    have hle' : ∀ s ∈ ks, k ≤ s → m ≤ Dict.cum w s - Dict.cum st.1 s := by
      intro s hsks hks'
      apply hle
      unfold Dict.vals
      refine List.mem_map.2 ⟨(s, _), ?_, rfl⟩
      rw [List.mem_filter, h.accum]
      exact ⟨List.mem_map.2 ⟨s, hsks, rfl⟩, by simpa using hks'⟩
    obtain ⟨s, hsks, hks', hms⟩ :
        ∃ s ∈ ks, k ≤ s ∧ m = Dict.cum w s - Dict.cum st.1 s := by
      unfold Dict.vals at hmem
      obtain ⟨a, ha, rfl⟩ := List.mem_map.1 hmem
      rw [List.mem_filter, h.accum] at ha
      obtain ⟨ha1, ha2⟩ := ha
      obtain ⟨s, hs1, rfl⟩ := List.mem_map.1 ha1
      exact ⟨s, hs1, by simpa using ha2, rfl⟩
    -- all keys of the result so far are ≤ k, so cum over it is constant from k on
    have hcumres : Dict.cum st.1 s = Dict.cum st.1 k := by
      apply Dict.cum_congr
      intro j hj
      have := hprelt j (h.keys j hj)
      exact ⟨fun _ => this.le, fun _ => this.le.trans hks'⟩
    have hval : Dict.val st.1 k = 0 := Dict.val_of_not_mem hknot
    simp only
    by_cases hpos : m > 0
    · simp only [hpos, if_true]
      refine ⟨_, rfl, ?_⟩
      have hcum : ∀ t, Dict.cum (Dict.set st.1 k m) t
          = Dict.cum st.1 t + (if k ≤ t then m else 0) := by
        intro t; rw [Dict.cum_set h.wf, hval]; simp
      constructor
      · simp only
        rw [h.accum, List.map_map]
        apply List.map_congr_left
        intro j _
        simp only [Function.comp_def, ge_iff_le, hcum]
        by_cases hj : k ≤ j
        · simp [hj]; ring
        · simp [hj]
      · exact Dict.wf_set h.wf _ _
      · intro a ha
        simp only at ha
        rw [Dict.set_of_not_mem _ hknot, List.mem_append] at ha
        rcases ha with ha | ha
        · exact h.pos a ha
        · simp only [List.mem_singleton] at ha; subst ha; exact hpos
      · intro j hj
        simp only at hj
        rw [Dict.mem_keys_set] at hj
        rcases hj with rfl | hj
        · simp
        · exact List.mem_append_left _ (h.keys j hj)
      · intro j hj
        simp only [hcum]
        by_cases hkj : k ≤ j
        · simp only [hkj, if_true]
          have := hle' j hj hkj
          exact (min_le_left _ _).trans (by linarith)
        · simp only [hkj, if_false, add_zero]
          exact h.feasible j hj
      · intro t ht
        simp only [hcum]
        rcases List.mem_append.1 ht with ht | ht
        · obtain ⟨s', h1, h2, h3⟩ := h.tight t ht
          refine ⟨s', h1, h2, h3.trans ?_⟩
          split
          · linarith
          · simp
        · simp only [List.mem_singleton] at ht
          subst ht
          refine ⟨s, hsks, hks', ?_⟩
          simp only [le_refl, if_true]
          linarith
    · simp only [hpos, if_false]
      refine ⟨st, rfl, ⟨h.accum, h.wf, h.pos, fun j hj => List.mem_append_left _ (h.keys j hj),
        h.feasible, ?_⟩⟩
      intro t ht
      rcases List.mem_append.1 ht with ht | ht
      · exact h.tight t ht
      · simp only [List.mem_singleton] at ht
        subst ht
        exact ⟨s, hsks, hks', by linarith [not_lt.1 hpos]⟩

theorem inflow_loop_inv {w : Dict K K} {ks pre post : List K}
    {st : Dict K K × Dict K K × K} (hks : ks = pre ++ post)
    (hs : ks.Pairwise (· < ·)) (h : InflowInv w ks pre st) :
    ∃ st', post.foldlM inflowStep st = .ok st' ∧ InflowInv w ks ks st' := by
  induction post generalizing pre st with
  | nil =>
    simp only [List.append_nil] at hks
    subst hks
    exact ⟨st, rfl, h⟩
  | cons k post ih =>
    obtain ⟨st1, e1, h1⟩ := inflow_step_inv hks hs h
    obtain ⟨st2, e2, h2⟩ := ih (pre := pre ++ [k]) (by simpa using hks) h1
    refine ⟨st2, ?_, h2⟩
    rw [List.foldlM_cons, e1]
    exact e2

theorem accumInflows_inv {w : Dict K K} (hw : Dict.WF w) :
    ∃ r acc tally, accumInflows w = .ok r ∧
      InflowInv w ((Dict.keys w).insertionSort (· ≤ ·))
        ((Dict.keys w).insertionSort (· ≤ ·)) (r, acc, tally) := by
  have hp := List.perm_insertionSort (· ≤ ·) (Dict.keys w)
  have hs := sortedKeys_lt hw
  have e := accum_loop hw (pre := []) (post := (Dict.keys w).insertionSort (· ≤ ·))
    (by simpa using hp) (by simpa using hs)
  simp only [List.map_nil, List.sum_nil, List.nil_append] at e
  obtain ⟨⟨r, acc, tally⟩, h1, h2⟩ := inflow_loop_inv (w := w)
    (ks := (Dict.keys w).insertionSort (· ≤ ·)) (pre := [])
    (post := (Dict.keys w).insertionSort (· ≤ ·))
    (st := ([], ((Dict.keys w).insertionSort (· ≤ ·)).map (fun k => (k, Dict.cum w k)), 0))
    rfl hs ⟨by simp, by simp, by simp, by simp, by simp, by simp⟩
  refine ⟨r, acc, tally, ?_, h2⟩
  unfold accumInflows
  simp only [e]
  rw [h1]
  rfl

/-- Loop invariant of `_accum_outflows`. -/
structure OutflowInv (w : Dict K K) (pre : List K) (st : K × Dict K K) : Prop where
  accum : st.1 = (pre.map (Dict.val w)).sum + Dict.total st.2
  nonneg : 0 ≤ st.1
  wf : Dict.WF st.2
  pos : ∀ a ∈ st.2, 0 < a.2
  keys : ∀ k ∈ Dict.keys st.2, k ∈ pre
  feasible : ∀ k ∈ pre, 0 ≤ Dict.cum w k + Dict.cum st.2 k
  tight : ∀ k ∈ Dict.keys st.2, Dict.cum w k + Dict.cum st.2 k = 0

theorem outflow_step_inv {w : Dict K K} (hw : Dict.WF w) {pre post : List K} {k : K}
    {st : K × Dict K K} (hp : (pre ++ k :: post).Perm (Dict.keys w))
    (hs : (pre ++ k :: post).Pairwise (· < ·)) (h : OutflowInv w pre st) :
    OutflowInv w (pre ++ [k]) (outflowStep w st k) := by
  have hc := cum_at_split hw hp hs
  have hprelt : ∀ j ∈ pre, j < k := by
    intro j hj
    rw [List.pairwise_append] at hs
    exact hs.2.2 j hj k (by simp)
  have hknot : k ∉ Dict.keys st.2 := fun hk => lt_irrefl _ (hprelt k (h.keys k hk))
  have hval : Dict.val st.2 k = 0 := Dict.val_of_not_mem hknot
  have htot : Dict.cum st.2 k = Dict.total st.2 :=
    Dict.cum_eq_total fun j hj => (hprelt j (h.keys j hj)).le
  unfold outflowStep
  have hacc := h.accum
  by_cases hneg : st.1 + Dict.val w k < 0
  · simp only [hneg, if_true]
    have hcum : ∀ t, Dict.cum (Dict.set st.2 k (-(st.1 + Dict.val w k))) t
        = Dict.cum st.2 t + (if k ≤ t then -(st.1 + Dict.val w k) else 0) := by
      intro t; rw [Dict.cum_set h.wf, hval]; simp
    constructor
    · simp only
      rw [Dict.total_set h.wf, hval]
      simp only [List.map_append, List.map_cons, List.map_nil, List.sum_append, List.sum_cons,
        List.sum_nil]
      linarith
    · exact le_refl _
    · exact Dict.wf_set h.wf _ _
    · intro a ha
      simp only at ha
      rw [Dict.set_of_not_mem _ hknot, List.mem_append] at ha
      rcases ha with ha | ha
      · exact h.pos a ha
      · simp only [List.mem_singleton] at ha; subst ha; exact neg_pos.2 hneg
    · intro j hj
      simp only at hj
      rw [Dict.mem_keys_set] at hj
      rcases hj with rfl | hj
      · simp
      · exact List.mem_append_left _ (h.keys j hj)
    · intro j hj
      simp only [hcum]
      rcases List.mem_append.1 hj with hj | hj
      · have := h.feasible j hj
        simp only [not_le.2 (hprelt j hj), if_false]; linarith
      · simp only [List.mem_singleton] at hj
        subst hj
        simp only [le_refl, if_true, hc, htot]
        linarith
    · intro j hj
      simp only at hj
      rw [Dict.mem_keys_set] at hj
      simp only [hcum]
      rcases hj with rfl | hj
      · simp only [le_refl, if_true, hc, htot]
        linarith
      · have := h.tight j hj
        simp only [not_le.2 (hprelt j (h.keys j hj)), if_false]; linarith
  · simp only [hneg, if_false]
    constructor
    · simp only [List.map_append, List.map_cons, List.map_nil, List.sum_append, List.sum_cons,
        List.sum_nil]
      linarith
    · exact not_lt.1 hneg
    · exact h.wf
    · exact h.pos
    · exact fun j hj => List.mem_append_left _ (h.keys j hj)
    · intro j hj
      rcases List.mem_append.1 hj with hj | hj
      · exact h.feasible j hj
      · simp only [List.mem_singleton] at hj
        subst hj
        simp only [hc, htot]
        linarith [not_lt.1 hneg]
    · exact h.tight

theorem outflow_loop_inv {w : Dict K K} (hw : Dict.WF w) {pre post : List K}
    {st : K × Dict K K} (hp : (pre ++ post).Perm (Dict.keys w))
    (hs : (pre ++ post).Pairwise (· < ·)) (h : OutflowInv w pre st) :
    OutflowInv w (pre ++ post) (post.foldl (outflowStep w) st) := by
  induction post generalizing pre st with
  | nil => simpa using h
  | cons k post ih =>
    have h1 := outflow_step_inv hw hp hs h
    have := ih (pre := pre ++ [k]) (by simpa using hp) (by simpa using hs) h1
    simpa using this

theorem accumOutflows_inv {w : Dict K K} (hw : Dict.WF w) :
    ∃ a, OutflowInv w ((Dict.keys w).insertionSort (· ≤ ·)) (a, accumOutflows w) := by
  have hp := List.perm_insertionSort (· ≤ ·) (Dict.keys w)
  have hs := sortedKeys_lt hw
  have h0 : OutflowInv w [] (0, []) :=
    ⟨by simp, by simp, by simp, by simp, by simp, by simp, by simp⟩
  have := outflow_loop_inv hw (pre := []) (by simpa using hp) (by simpa using hs) h0
  exact ⟨_, by simpa [accumOutflows] using this⟩

/-- the last key at or before `t` -/
theorem exists_last_le {ks : List K} {t : K} (h : ∃ k ∈ ks, k ≤ t) :
    ∃ k ∈ ks, k ≤ t ∧ ∀ j ∈ ks, j ≤ t → j ≤ k := by
  induction ks with
  | nil => simp at h
  | cons a ks ih =>
    by_cases h' : ∃ k ∈ ks, k ≤ t
    · obtain ⟨k, h1, h2, h3⟩ := ih h'
      by_cases hak : a ≤ t ∧ k ≤ a
      · refine ⟨a, by simp, hak.1, ?_⟩
        intro j hj hjt
        rcases List.mem_cons.1 hj with rfl | hj
        · exact le_refl _
        · exact (h3 j hj hjt).trans hak.2
      · refine ⟨k, List.mem_cons_of_mem _ h1, h2, ?_⟩
        intro j hj hjt
        rcases List.mem_cons.1 hj with rfl | hj
        · by_contra hc
          exact hak ⟨hjt, (not_le.1 hc).le⟩
        · exact h3 j hj hjt
    · obtain ⟨k, hk, hkt⟩ := h
      rcases List.mem_cons.1 hk with rfl | hk
      · refine ⟨k, by simp, hkt, ?_⟩
        intro j hj hjt
        rcases List.mem_cons.1 hj with rfl | hj
        · exact le_refl _
        · exact absurd ⟨j, hj, hjt⟩ h'
      · exact absurd ⟨k, hk, hkt⟩ h'

/-- cumulative sums only change at keys -/
theorem cum_eq_last {w : Dict K K} {ks : List K} (hk : ∀ k ∈ Dict.keys w, k ∈ ks) {k t : K}
    (hkt : k ≤ t) (hlast : ∀ j ∈ ks, j ≤ t → j ≤ k) : Dict.cum w t = Dict.cum w k :=
  Dict.cum_congr fun j hj => ⟨fun h => hlast j (hk j hj) h, fun h => h.trans hkt⟩

/-! ### add / subtract -/

section addsub
variable {κ : Type} [DecidableEq κ]

theorem addOne_eq (b : Dict κ K) (kv : κ × K) :
    addOne b kv = Dict.set b kv.1 (Dict.val b kv.1 + kv.2) := by
  unfold addOne Dict.val
  cases Dict.get? b kv.1 <;> simp

theorem subOne_eq (b : Dict κ K) (kv : κ × K) :
    subOne b kv = Dict.set b kv.1 (Dict.val b kv.1 - kv.2) := by
  unfold subOne Dict.val
  cases Dict.get? b kv.1 <;> simp

theorem wf_add {b : Dict κ K} (hb : Dict.WF b) (a : Dict κ K) : Dict.WF (addTransactions b a) := by
  unfold addTransactions
  induction a generalizing b with
  | nil => simpa
  | cons x a ih => rw [List.foldl_cons, addOne_eq]; exact ih (Dict.wf_set hb _ _)

theorem wf_sub {b : Dict κ K} (hb : Dict.WF b) (a : Dict κ K) :
    Dict.WF (subtractTransactions b a) := by
  unfold subtractTransactions
  induction a generalizing b with
  | nil => simpa
  | cons x a ih => rw [List.foldl_cons, subOne_eq]; exact ih (Dict.wf_set hb _ _)

theorem val_add (b : Dict κ K) {a : Dict κ K} (ha : Dict.WF a) (k : κ) :
    Dict.val (addTransactions b a) k = Dict.val b k + Dict.val a k := by
  unfold addTransactions
  induction a generalizing b with
  | nil => simp [Dict.val_nil]
  | cons x a ih =>
    rw [Dict.wf_cons] at ha
    rw [List.foldl_cons, addOne_eq, ih _ ha.2, Dict.val_set]
    by_cases h : x.1 = k
    · subst h
      rw [Dict.val_of_not_mem ha.1]
      simp [Dict.val, Dict.get?_cons]
    · simp [h, Dict.val, Dict.get?_cons]

theorem val_sub (b : Dict κ K) {a : Dict κ K} (ha : Dict.WF a) (k : κ) :
    Dict.val (subtractTransactions b a) k = Dict.val b k - Dict.val a k := by
  unfold subtractTransactions
  induction a generalizing b with
  | nil => simp [Dict.val_nil]
  | cons x a ih =>
    rw [Dict.wf_cons] at ha
    rw [List.foldl_cons, subOne_eq, ih _ ha.2, Dict.val_set]
    by_cases h : x.1 = k
    · subst h
      rw [Dict.val_of_not_mem ha.1]
      simp [Dict.val, Dict.get?_cons]
    · simp [h, Dict.val, Dict.get?_cons]

theorem mem_keys_add (b a : Dict κ K) (k : κ) :
    k ∈ Dict.keys (addTransactions b a) ↔ k ∈ Dict.keys b ∨ k ∈ Dict.keys a := by
  unfold addTransactions
  induction a generalizing b with
  | nil => simp
  | cons x a ih =>
    rw [List.foldl_cons, addOne_eq, ih, Dict.mem_keys_set]
    simp only [Dict.keys_cons, List.mem_cons]
    tauto

theorem mem_keys_sub (b a : Dict κ K) (k : κ) :
    k ∈ Dict.keys (subtractTransactions b a) ↔ k ∈ Dict.keys b ∨ k ∈ Dict.keys a := by
  unfold subtractTransactions
  induction a generalizing b with
  | nil => simp
  | cons x a ih =>
    rw [List.foldl_cons, subOne_eq, ih, Dict.mem_keys_set]
    simp only [Dict.keys_cons, List.mem_cons]
    tauto

theorem total_add {b : Dict κ K} (hb : Dict.WF b) (a : Dict κ K) :
    Dict.total (addTransactions b a) = Dict.total b + Dict.total a := by
  unfold addTransactions
  induction a generalizing b with
  | nil => simp
  | cons x a ih =>
    rw [List.foldl_cons, addOne_eq, ih (Dict.wf_set hb _ _), Dict.total_set hb]
    simp only [Dict.total_cons]; ring

theorem total_sub {b : Dict κ K} (hb : Dict.WF b) (a : Dict κ K) :
    Dict.total (subtractTransactions b a) = Dict.total b - Dict.total a := by
  unfold subtractTransactions
  induction a generalizing b with
  | nil => simp
  | cons x a ih =>
    rw [List.foldl_cons, subOne_eq, ih (Dict.wf_set hb _ _), Dict.total_set hb]
    simp only [Dict.total_cons]; ring

end addsub

theorem cum_add {b : Dict K K} (hb : Dict.WF b) (a : Dict K K) (t : K) :
    Dict.cum (addTransactions b a) t = Dict.cum b t + Dict.cum a t := by
  unfold addTransactions
  induction a generalizing b with
  | nil => simp
  | cons x a ih =>
    rw [List.foldl_cons, addOne_eq, ih (Dict.wf_set hb _ _), Dict.cum_set hb, Dict.cum_cons]
    split <;> ring

theorem whenConv_num (x : K) :
    whenConv (.num x) = if x > 1 ∨ x < 0 then .error .valueError else .ok x := rfl

theorem whenConv_ok {x : K} (h0 : 0 ≤ x) (h1 : x ≤ 1) : whenConv (.num x) = .ok x := by
  rw [whenConv_num, if_neg]
  rintro (h | h)
  · exact absurd h1 (not_le.2 h)
  · exact absurd h0 (not_le.2 h)

theorem init_dict {w c : Dict K K} (f : Freq) (h : convertDict w = .ok c) (hc : Dict.WF c) :
    init (.dict w) f = .ok c := by
  show (do let c ← convertDict w; .ok (Dict.update [] c)) = _
  rw [h, ok_bind, Dict.update_nil_left hc]

theorem sum_map_mul_right {α : Type} (l : List α) (f : α → K) (c : K) :
    (l.map fun x => f x * c).sum = (l.map f).sum * c := by
  induction l with
  | nil => simp
  | cons a l ih => simp only [List.map_cons, List.sum_cons, ih]; ring

/-! ### normalisation -/

theorem lookup_mapM {d : Dict K K} {ks : List K} (h : ∀ k ∈ ks, k ∈ Dict.keys d) :
    ks.mapM (lookup d) = .ok (ks.map (Dict.val d)) := by
  induction ks with
  | nil => rfl
  | cons k ks ih =>
    have hk : Dict.get? d k = some (Dict.val d k) := Dict.get?_eq_some_val (h k (by simp))
    rw [List.mapM_cons, ih fun j hj => h j (List.mem_cons_of_mem _ hj)]
    simp [lookup, hk]

theorem lookup_mapM_err {d : Dict K K} {ks : List K} (h : ∃ k ∈ ks, k ∉ Dict.keys d) :
    ks.mapM (lookup d) = .error .keyError := by
  induction ks with
  | nil => simp at h
  | cons k ks ih =>
    rw [List.mapM_cons]
    by_cases hk : k ∈ Dict.keys d
    · have hk' : Dict.get? d k = some (Dict.val d k) := Dict.get?_eq_some_val hk
      have : ∃ j ∈ ks, j ∉ Dict.keys d := by
        obtain ⟨j, hj, hj'⟩ := h
        rcases List.mem_cons.1 hj with rfl | hj
        · exact absurd hk hj'
        · exact ⟨j, hj, hj'⟩
      rw [ih this]
      simp [lookup, hk']
    · simp [lookup, Dict.get?_eq_none.2 hk]

theorem norm_loop {d : Dict K K} {n : K} (hn : n ≠ 0) {ks : List K} (acc : Dict K K)
    (hnd : (Dict.keys acc ++ ks).Nodup) (h : ∀ k ∈ ks, k ∈ Dict.keys d) :
    ks.foldlM (normStep d n) acc = .ok (acc ++ ks.map fun k => (k, Dict.val d k / n)) := by
  induction ks generalizing acc with
  | nil => simp
  | cons k ks ih =>
    have hk : Dict.get? d k = some (Dict.val d k) := Dict.get?_eq_some_val (h k (by simp))
    have hnot : k ∉ Dict.keys acc := by
      rw [List.nodup_append] at hnd
      intro hm
      exact hnd.2.2 k hm k (by simp) rfl
    have e : normStep d n acc k = .ok (acc ++ [(k, Dict.val d k / n)]) := by
      simp [normStep, lookup, hk, hn, Dict.set_of_not_mem _ hnot]
    rw [List.foldlM_cons, e]
    have := ih (acc ++ [(k, Dict.val d k / n)]) (by simpa using hnd)
      fun j hj => h j (List.mem_cons_of_mem _ hj)
    simp only [List.append_assoc, List.singleton_append] at this
    simpa using this

theorem normalizedCore_some {d : Dict K K} {ks : List K} (hnd : ks.Nodup)
    (h : ∀ k ∈ ks, k ∈ Dict.keys d) (hn : (ks.map (Dict.val d)).sum ≠ 0) :
    normalizedCore d (some ks)
      = .ok (ks.map fun k => (k, Dict.val d k / (ks.map (Dict.val d)).sum)) := by
  unfold normalizedCore
  simp only [Option.getD_some, lookup_mapM h]
  have := norm_loop hn (acc := []) (ks := ks) (by simpa using hnd) h
  simpa using this

theorem normalizedCore_none {d : Dict K K} (hd : Dict.WF d) (hn : Dict.total d ≠ 0) :
    normalizedCore d none = .ok (Dict.mapVals (fun v => v / Dict.total d) d) := by
  have h := normalizedCore_some (d := d) (ks := Dict.keys d) hd (fun _ h => h)
    (by rwa [← Dict.total_eq_sum_keys hd])
  rw [← Dict.total_eq_sum_keys hd] at h
  have e : normalizedCore d none = normalizedCore d (some (Dict.keys d)) := rfl
  rw [e, h]
  congr 1
  unfold Dict.mapVals Dict.keys
  rw [List.map_map]
  apply List.map_congr_left
  intro a ha
  have : Dict.get? d a.1 = some a.2 := Dict.get?_of_mem hd ha
  simp [Dict.val, this]

theorem total_mapVals_mul (d : Dict K K) (c : K) :
    Dict.total (Dict.mapVals (fun v => v * c) d) = Dict.total d * c := by
  induction d with
  | nil => simp [Dict.mapVals]
  | cons a d ih =>
    simp only [Dict.mapVals, List.map_cons, Dict.total_cons] at *
    rw [ih]; ring

end Timing
end Forecaster
