import Verif.Lemmas.TraversalForest

/-!
# Flows through nested ordered lists
-/

set_option linter.unusedSectionVars false

namespace Forecaster.Traversal

open Forecaster Forecaster.Timing Forest

variable {K : Type} [Field K] [LinearOrder K] [IsStrictOrderedRing K] [FloorRing K]
variable {N A : Type} [DecidableEq N] [DecidableEq A]

/-! ### Potentials -/

section Potential

variable {g : Graph N A} {F : G N A → G N A → ℤ}

/-- What leaves the source reaches the sink. -/
theorem value_sink (h : IsFlow g F) (hs : ∀ u e, Dict.get? g (u, .source) = some e → False)
    (ht : ∀ v e, Dict.get? g (.sink, v) = some e → False) :
    value g F = ∑ u ∈ verts g, F u .sink := by
  have hin : ∀ u, F u .source = 0 := fun u => h.edges _ _ (by
    cases hx : Dict.get? g (u, .source) with
    | none => rfl
    | some e => exact (hs u e hx).elim)
  have hout : ∀ v, F .sink v = 0 := fun v => h.edges _ _ (by
    cases hx : Dict.get? g (.sink, v) with
    | none => rfl
    | some e => exact (ht v e hx).elim)
  have key : ∑ v ∈ verts g, (∑ u ∈ verts g, F u v - ∑ w ∈ verts g, F v w) = 0 := by
    rw [Finset.sum_sub_distrib, Finset.sum_comm, sub_self]
  have hterm : ∀ v ∈ verts g, (∑ u ∈ verts g, F u v - ∑ w ∈ verts g, F v w) =
      (if v = .sink then ∑ u ∈ verts g, F u .sink else 0) -
        (if v = .source then value g F else 0) := by
    intro v _
    by_cases h1 : v = .sink
    · subst h1; simp [hout]
    · by_cases h2 : v = .source
      · subst h2; simp [hin, value]
      · rw [h.conserve v h2 h1]; simp [h1, h2]
  rw [Finset.sum_congr rfl hterm, Finset.sum_sub_distrib, Finset.sum_ite_eq',
    Finset.sum_ite_eq'] at key
  have h1 : (.sink : G N A) ∉ verts g → ∑ u ∈ verts g, F u .sink = 0 := fun hn =>
    Finset.sum_eq_zero fun u _ => h.edges _ _ (by
      cases hx : Dict.get? g (u, .sink) with
      | none => rfl
      | some e => exact absurd (mem_verts_left hx).2 hn)
  have h2 : (.source : G N A) ∉ verts g → value g F = 0 := fun hn =>
    Finset.sum_eq_zero fun u _ => h.edges _ _ (by
      cases hx : Dict.get? g (.source, u) with
      | none => rfl
      | some e => exact absurd (mem_verts_left hx).1 hn)
  split_ifs at key with h3 h4 h4
  · omega
  · rw [h2 h4]; omega
  · rw [h1 h3]; omega
  · rw [h1 h3, h2 h4]

/-- If the weights are differences of potentials, the cost is the potential of where the flow
comes out. -/
theorem cost_potential (h : IsFlow g F) (φ : G N A → ℤ) (h0 : φ .source = 0) (h1 : φ .sink = 0)
    (hw : ∀ u v e, Dict.get? g (u, v) = some e → v ≠ .sink → e.weight.getD 0 = φ v - φ u)
    (ht : ∀ u e, Dict.get? g (u, .sink) = some e → e.weight.getD 0 = 0) :
    cost g F = ∑ u ∈ verts g, φ u * F u .sink := by
  have hterm : ∀ u v, weight g u v * F u v =
      φ v * F u v - φ u * F u v + (if v = .sink then φ u * F u v else 0) := by
    intro u v
    cases hx : Dict.get? g (u, v) with
    | none => rw [h.edges u v hx]; simp
    | some e =>
      have hwt : weight g u v = e.weight.getD 0 := by
        unfold weight; rw [hx]; rfl
      rw [hwt]
      by_cases hv : v = .sink
      · subst hv; rw [ht u e hx, if_pos rfl, h1]; ring
      · rw [hw u v e hx hv, if_neg hv]; ring
  have hzero : ∑ u ∈ verts g, ∑ v ∈ verts g, (φ v * F u v - φ u * F u v) = 0 := by
    have e1 : ∑ u ∈ verts g, ∑ v ∈ verts g, φ v * F u v =
        ∑ v ∈ verts g, φ v * ∑ u ∈ verts g, F u v := by
      rw [Finset.sum_comm]
      exact Finset.sum_congr rfl fun v _ => (Finset.mul_sum _ _ _).symm
    have e2 : ∑ u ∈ verts g, ∑ v ∈ verts g, φ u * F u v =
        ∑ v ∈ verts g, φ v * ∑ w ∈ verts g, F v w :=
      Finset.sum_congr rfl fun v _ => (Finset.mul_sum _ _ _).symm
    simp only [Finset.sum_sub_distrib]
    rw [e1, e2, ← Finset.sum_sub_distrib]
    apply Finset.sum_eq_zero
    intro v _
    by_cases hs : v = .source
    · subst hs; rw [h0]; ring
    · by_cases hk : v = .sink
      · subst hk; rw [h1]; ring
      · rw [h.conserve v hs hk]; ring
  unfold cost
  have : ∀ u ∈ verts g, ∑ v ∈ verts g, weight g u v * F u v =
      ∑ v ∈ verts g, (φ v * F u v - φ u * F u v) + φ u * F u .sink := by
    intro u _
    rw [Finset.sum_congr rfl fun v _ => hterm u v, Finset.sum_add_distrib, Finset.sum_ite_eq']
    by_cases hk : (.sink : G N A) ∈ verts g
    · rw [if_pos hk]
    · rw [if_neg hk, h.edges u .sink, mul_zero]
      cases hx : Dict.get? g (u, .sink) with
      | none => rfl
      | some e => exact absurd (mem_verts_left hx).2 hk
  rw [Finset.sum_congr rfl this, Finset.sum_add_distrib, hzero, zero_add]

end Potential

open Classical in
/-- The potential of a vertex: the penalties on the way to it. -/
noncomputable def Forest.pot : ℤ → ℤ → Forest N A → G N A → ℤ
  | _, _, nil, _ => 0
  | b, w, leaf n a r, v =>
    if v = .node n ∨ v = .limit n ∨ v = .acct a then b + w else r.pot b (max w 0 + 1) v
  | b, w, node n c r, v =>
    if v = .node n ∨ v = .limit n then b + w
    else if c.Has v then c.pot (b + w) 0 v else r.pot b (max w (c.sumW 0) + 1) v

theorem Forest.pot_none (f : Forest N A) (b w : ℤ) {v : G N A} (h : ¬ f.Has v) :
    f.pot b w v = 0 := by
  induction f generalizing b w with
  | nil => rfl
  | leaf n a r ih =>
    rw [has_leaf] at h
    rw [pot, if_neg (by tauto)]
    exact ih _ _ (by tauto)
  | node n c r ihc ihr =>
    rw [has_node] at h
    rw [pot, if_neg (by tauto), if_neg (by tauto)]
    exact ihr _ _ (by tauto)

theorem Forest.pot_pens (f : Forest N A) (p : N) (b w : ℤ) (hA : Apart p f) :
    ∀ e ∈ f.pens b w, f.pot b w (.acct e.1) = e.2 ∧ e.1 ∈ f.accs := by
  induction f generalizing p b w with
  | nil => intro e he; simp [pens] at he
  | leaf n a r ih =>
    obtain ⟨h1, h2, h3, h4⟩ := hA.leaf
    intro e he
    rw [pens, List.mem_cons] at he
    rcases he with rfl | he
    · exact ⟨by rw [pot, if_pos (by simp)], by simp [accs]⟩
    · obtain ⟨h5, h6⟩ := ih p _ _ h1 e he
      refine ⟨?_, by simp [accs, h6]⟩
      rw [pot, if_neg, h5]
      simp only [reduceCtorEq, G.acct.injEq, false_or]
      rintro rfl
      exact h4 h6
  | node n c r ihc ihr =>
    obtain ⟨h1, h2, h3, h4, h5, h6, h7⟩ := hA.node
    intro e he
    rw [pens, List.mem_append] at he
    rcases he with he | he
    · obtain ⟨h8, h9⟩ := ihc n _ _ h2 e he
      refine ⟨?_, by simp [accs, h9]⟩
      rw [pot, if_neg (by simp), if_pos (show c.Has (.acct e.1) from h9), h8]
    · obtain ⟨h8, h9⟩ := ihr p _ _ h1 e he
      refine ⟨?_, by simp [accs, h9]⟩
      rw [pot, if_neg (by simp), if_neg, h8]
      exact fun h : e.1 ∈ c.accs => h7 _ h h9

theorem Forest.pens_accs (f : Forest N A) (b w : ℤ) : (f.pens b w).map Prod.fst = f.accs := by
  induction f generalizing b w with
  | nil => rfl
  | leaf n a r ih => simp [pens, accs, ih]
  | node n c r ihc ihr => simp [pens, accs, ihc, ihr]

/-- The potential of the parent, or of a vertex of the forest. -/
theorem Forest.edges_pot {cap : A → Option ℤ} {M : ℤ} (f : Forest N A) (p : N) (b w : ℤ)
    (hA : Apart p f) : ∀ e ∈ f.edges cap M p w,
      (e.1.2 ≠ .sink → e.2.weight.getD 0 = f.pot b w e.1.2 -
        (if e.1.1 = .limit p then b else f.pot b w e.1.1)) ∧
      (e.1.2 = .sink → e.2.weight.getD 0 = 0 ∧ ∃ a ∈ f.accs, e.1.1 = .acct a) := by
  induction f generalizing p b w with
  | nil => intro e he; simp [edges] at he
  | leaf n a r ih =>
    obtain ⟨h1, h2, h3, h4⟩ := hA.leaf
    have h2' : ¬ n = p := fun h => h2 h.symm
    intro e he
    simp only [edges, List.mem_cons] at he
    rcases he with rfl | rfl | rfl | rfl | he
    · simp [pot]
    · simp [pot]
    · simp [pot, h2']
    · simp [accs]
    · obtain ⟨h5, h6⟩ := ih p b _ h1 e he
      obtain ⟨q1, q2, -⟩ := edges_ends r p _ e he
      have hr : ∀ v, r.Has v → (leaf n a r).pot b w v = r.pot b (max w 0 + 1) v := by
        intro v hv
        rw [pot, if_neg]
        rintro (rfl | rfl | rfl)
        · exact h3 hv
        · exact h3 hv
        · exact h4 hv
      refine ⟨fun hs => ?_, fun hs => ⟨(h6 hs).1, ?_⟩⟩
      · rw [h5 hs, hr _ (q2.resolve_left hs)]
        split_ifs with hh
        · rfl
        · rw [hr _ (q1.resolve_left hh)]
      · obtain ⟨a', ha', heq⟩ := (h6 hs).2
        exact ⟨a', by simp [accs, ha'], heq⟩
  | node n c r ihc ihr =>
    obtain ⟨h1, h2, h3, h4, h5, h6, h7⟩ := hA.node
    have h3' : ¬ n = p := fun h => h3 h.symm
    intro e he
    simp only [edges, List.mem_cons, List.mem_append] at he
    have hc : ∀ v, c.Has v → (node n c r).pot b w v = c.pot (b + w) 0 v := by
      intro v hv
      rw [pot, if_neg, if_pos hv]
      rintro (rfl | rfl)
      · exact h2.limit hv
      · exact h2.limit hv
    have hr : ∀ v, r.Has v → (node n c r).pot b w v = r.pot b (max w (c.sumW 0) + 1) v := by
      intro v hv
      rw [pot, if_neg, if_neg]
      · exact fun h => hA.disjoint h hv
      · rintro (rfl | rfl)
        · exact h5 hv
        · exact h5 hv
    rcases he with rfl | rfl | he | he
    · simp [pot]
    · simp [pot]
    · obtain ⟨h8, h9⟩ := ihc n (b + w) 0 h2 e he
      obtain ⟨q1, q2, -⟩ := edges_ends c n _ e he
      refine ⟨fun hs => ?_, fun hs => ⟨(h9 hs).1, ?_⟩⟩
      · rw [h8 hs, hc _ (q2.resolve_left hs)]
        by_cases hh : e.1.1 = .limit n
        · rw [hh]; simp [pot, h3']
        · have hq := q1.resolve_left hh
          rw [if_neg hh, if_neg, hc _ hq]
          intro hp
          rw [hp] at hq
          exact h4 hq
      · obtain ⟨a', ha', heq⟩ := (h9 hs).2
        exact ⟨a', by simp [accs, ha'], heq⟩
    · obtain ⟨h8, h9⟩ := ihr p b _ h1 e he
      obtain ⟨q1, q2, -⟩ := edges_ends r p _ e he
      refine ⟨fun hs => ?_, fun hs => ⟨(h9 hs).1, ?_⟩⟩
      · rw [h8 hs, hr _ (q2.resolve_left hs)]
        split_ifs with hh
        · rfl
        · rw [hr _ (q1.resolve_left hh)]
      · obtain ⟨a', ha', heq⟩ := (h9 hs).2
        exact ⟨a', by simp [accs, ha'], heq⟩

theorem Forest.edges_wf {cap : A → Option ℤ} {M : ℤ} (f : Forest N A) (p : N) (w : ℤ)
    (hA : Apart p f) : Dict.WF (f.edges cap M p w) := by
  induction f generalizing p w with
  | nil => simp [edges]
  | leaf n a r ih =>
    obtain ⟨h1, h2, h3, h4⟩ := hA.leaf
    have h2' : ¬ n = p := fun h => h2 h.symm
    have key : ∀ u v : G N A, (v = .node n ∨ v = .limit n ∨ v = .acct a ∨ u = .acct a) →
        (u, v) ∉ Dict.keys (r.edges cap M p (max w 0 + 1)) := by
      intro u v huv hk
      obtain ⟨e, he, heq⟩ := List.mem_map.1 hk
      obtain ⟨q1, q2, -⟩ := edges_ends r p _ e he
      rw [heq] at q1 q2
      rcases huv with rfl | rfl | rfl | rfl
      · exact h3 (q2.resolve_left (by simp))
      · exact h3 (q2.resolve_left (by simp))
      · exact h4 (q2.resolve_left (by simp))
      · exact h4 (q1.resolve_left (by simp))
    simp only [edges, Dict.wf_cons, Dict.keys_cons, List.mem_cons, not_or]
    refine ⟨⟨by simp, by simp, by simp, key _ _ (by simp)⟩, ⟨by simp, by simp, key _ _ (by simp)⟩,
      ⟨by simp, key _ _ (by simp)⟩, key _ _ (by simp), ih p _ h1⟩
  | node n c r ihc ihr =>
    obtain ⟨h1, h2, h3, h4, h5, h6, h7⟩ := hA.node
    have keyc : ∀ u v : G N A, (v = .node n ∨ v = .limit n) →
        (u, v) ∉ Dict.keys (c.edges cap M n 0) := by
      intro u v huv hk
      obtain ⟨e, he, heq⟩ := List.mem_map.1 hk
      obtain ⟨q1, q2, -⟩ := edges_ends c n _ e he
      rw [heq] at q1 q2
      rcases huv with rfl | rfl
      · exact h2.limit (q2.resolve_left (by simp))
      · exact h2.limit (q2.resolve_left (by simp))
    have keyr : ∀ u v : G N A, (v = .node n ∨ v = .limit n) →
        (u, v) ∉ Dict.keys (r.edges cap M p (max w (c.sumW 0) + 1)) := by
      intro u v huv hk
      obtain ⟨e, he, heq⟩ := List.mem_map.1 hk
      obtain ⟨q1, q2, -⟩ := edges_ends r p _ e he
      rw [heq] at q1 q2
      rcases huv with rfl | rfl
      · exact h5 (q2.resolve_left (by simp))
      · exact h5 (q2.resolve_left (by simp))
    simp only [edges, Dict.wf_cons, Dict.keys_cons, Dict.keys_append, List.mem_cons,
      List.mem_append, not_or]
    refine ⟨⟨by simp, keyc _ _ (by simp), keyr _ _ (by simp)⟩,
      ⟨keyc _ _ (by simp), keyr _ _ (by simp)⟩, ?_⟩
    unfold Dict.WF
    rw [Dict.keys_append, List.nodup_append]
    refine ⟨ihc n 0 h2, ihr p _ h1, ?_⟩
    rintro k hk k' hk' rfl
    obtain ⟨e, he, heq⟩ := List.mem_map.1 hk
    obtain ⟨e', he', heq'⟩ := List.mem_map.1 hk'
    obtain ⟨q1, q2, q3⟩ := edges_ends c n _ e he
    obtain ⟨q4, q5, q6⟩ := edges_ends r p _ e' he'
    rw [heq] at q1 q2 q3
    rw [heq'] at q4 q5 q6
    rcases q3 with q3 | q3
    · rcases q4 with q4 | q4
      · rw [q4] at q3; exact h4 q3
      · exact hA.disjoint q3 q4
    · rcases q5 with q5 | q5
      · rw [q5] at q3; exact q3
      · exact hA.disjoint q3 q5

section Graph

variable {root : N} {cap : A → Option ℤ} {T : ℤ} {f : Forest N A}

theorem nested_wf (hA : Apart root f) : Dict.WF (nestedGraph root cap T f) := by
  have key : ∀ u v : G N A, (v = .node root ∨ v = .limit root) →
      (u, v) ∉ Dict.keys (f.edges cap |T| root 0) := by
    intro u v huv hk
    obtain ⟨e, he, heq⟩ := List.mem_map.1 hk
    obtain ⟨q1, q2, -⟩ := edges_ends f root _ e he
    rw [heq] at q1 q2
    rcases huv with rfl | rfl
    · exact hA.limit (q2.resolve_left (by simp))
    · exact hA.limit (q2.resolve_left (by simp))
  simp only [nestedGraph, Dict.wf_cons, Dict.keys_cons, List.mem_cons, not_or]
  exact ⟨⟨by simp, key _ _ (by simp)⟩, key _ _ (by simp), edges_wf f root 0 hA⟩

/-- The edges of the graph. -/
theorem nested_mem {u v : G N A} {e : Edge}
    (h : Dict.get? (nestedGraph root cap T f) (u, v) = some e) :
    (u = .source ∧ v = .node root ∧ e = ⟨some T, none⟩) ∨
    (u = .node root ∧ v = .limit root ∧ e = ⟨none, none⟩) ∨
    ((u, v), e) ∈ f.edges cap |T| root 0 := by
  have := Dict.mem_of_get? h
  simp only [nestedGraph, List.mem_cons, Prod.mk.injEq] at this
  tauto

theorem nested_no_source {u : G N A} {e : Edge}
    (h : Dict.get? (nestedGraph root cap T f) (u, .source) = some e) : False := by
  rcases nested_mem h with h | h | h
  · simp at h
  · simp at h
  · have := (edges_ends f root _ _ h).2.1
    simp [Has] at this

theorem nested_no_sink {v : G N A} {e : Edge}
    (h : Dict.get? (nestedGraph root cap T f) (.sink, v) = some e) : False := by
  rcases nested_mem h with h | h | h
  · simp at h
  · simp at h
  · have := (edges_ends f root _ _ h).1
    simp [Has] at this

theorem nested_source {v : G N A} {e : Edge}
    (h : Dict.get? (nestedGraph root cap T f) (.source, v) = some e) : v = .node root := by
  rcases nested_mem h with h | h | h
  · exact h.2.1
  · simp at h
  · have := (edges_ends f root _ _ h).1
    simp [Has] at this

theorem nested_sink (hA : Apart root f) {u : G N A} {e : Edge}
    (h : Dict.get? (nestedGraph root cap T f) (u, .sink) = some e) :
    e.weight.getD 0 = 0 ∧ ∃ a ∈ f.accs, u = .acct a := by
  rcases nested_mem h with h | h | h
  · simp at h
  · simp at h
  · exact (edges_pot f root 0 0 hA _ h).2 rfl

theorem Forest.edges_acct {M : ℤ} (f : Forest N A) (p : N) (w : ℤ) :
    ∀ a ∈ f.accs, ((.acct a, .sink), (⟨cap a, none⟩ : Edge)) ∈ f.edges cap M p w := by
  induction f generalizing p w with
  | nil => intro a ha; simp [accs] at ha
  | leaf n b r ih =>
    intro a ha
    simp only [accs, List.mem_cons] at ha
    simp only [edges, List.mem_cons]
    rcases ha with rfl | ha
    · simp
    · exact .inr (.inr (.inr (.inr (ih p _ a ha))))
  | node n c r ihc ihr =>
    intro a ha
    simp only [accs, List.mem_append] at ha
    simp only [edges, List.mem_cons, List.mem_append]
    rcases ha with ha | ha
    · exact .inr (.inr (.inl (ihc n _ a ha)))
    · exact .inr (.inr (.inr (ihr p _ a ha)))

theorem Forest.edges_out_acct {M : ℤ} (f : Forest N A) (p : N) (w : ℤ) :
    ∀ e ∈ f.edges cap M p w, ∀ a, e.1.1 = .acct a → e.1.2 = .sink := by
  induction f generalizing p w with
  | nil => intro e he; simp [edges] at he
  | leaf n b r ih =>
    intro e he a ha
    simp only [edges, List.mem_cons] at he
    rcases he with rfl | rfl | rfl | rfl | he
    · simp at ha
    · simp at ha
    · simp at ha
    · rfl
    · exact ih p _ e he a ha
  | node n c r ihc ihr =>
    intro e he a ha
    simp only [edges, List.mem_cons, List.mem_append] at he
    rcases he with rfl | rfl | he | he
    · simp at ha
    · simp at ha
    · exact ihc n _ e he a ha
    · exact ihr p _ e he a ha

theorem nested_acct (hA : Apart root f) {a : A} (ha : a ∈ f.accs) :
    Dict.get? (nestedGraph root cap T f) (.acct a, .sink) = some ⟨cap a, none⟩ := by
  apply Dict.get?_of_mem (nested_wf hA)
  simp only [nestedGraph, List.mem_cons]
  exact .inr (.inr (edges_acct f root 0 a ha))

theorem nested_out_acct {a : A} {v : G N A} {e : Edge}
    (h : Dict.get? (nestedGraph root cap T f) (.acct a, v) = some e) : v = .sink := by
  rcases nested_mem h with h | h | h
  · simp at h
  · simp at h
  · exact edges_out_acct f root 0 _ h a rfl

/-- The penalty of an account. -/
noncomputable def Forest.pen (f : Forest N A) (a : A) : ℤ := f.pot 0 0 (.acct a)

/-- Value and cost of a flow, in terms of what the accounts get. -/
theorem nested_flow (hA : Apart root f) {F : G N A → G N A → ℤ}
    (h : IsFlow (nestedGraph root cap T f) F) :
    value (nestedGraph root cap T f) F = ∑ a ∈ f.accs.toFinset, F (.acct a) .sink ∧
    F .source (.node root) = ∑ a ∈ f.accs.toFinset, F (.acct a) .sink ∧
    cost (nestedGraph root cap T f) F = ∑ a ∈ f.accs.toFinset, f.pen a * F (.acct a) .sink := by
  set g := nestedGraph root cap T f with hg
  have hsum : ∀ k : G N A → ℤ, ∑ u ∈ verts g, k u * F u .sink =
      ∑ a ∈ f.accs.toFinset, k (.acct a) * F (.acct a) .sink := by
    intro k
    have hinj : Set.InjOn (fun a : A => (G.acct a : G N A)) f.accs.toFinset := by
      intro a _ b _ hab
      simpa using hab
    rw [← Finset.sum_image (s := f.accs.toFinset) (g := fun a => G.acct a)
      (f := fun u => k u * F u .sink) hinj]
    symm
    apply Finset.sum_subset
    · intro u hu
      obtain ⟨a, ha, rfl⟩ := Finset.mem_image.1 hu
      exact (mem_verts_left (nested_acct hA (cap := cap) (T := T) (by simpa using ha))).1
    · intro u _ hu
      rw [h.edges, mul_zero]
      cases hx : Dict.get? g (u, .sink) with
      | none => rfl
      | some e =>
        obtain ⟨-, a, ha, rfl⟩ := nested_sink hA hx
        exact absurd (Finset.mem_image.2 ⟨a, by simpa using ha, rfl⟩) hu
  have hv : value g F = ∑ a ∈ f.accs.toFinset, F (.acct a) .sink := by
    rw [value_sink h (fun u e he => nested_no_source he) (fun v e he => nested_no_sink he)]
    simpa using hsum fun _ => 1
  refine ⟨hv, ?_, ?_⟩
  · rw [← hv]
    unfold value
    exact (sum_out h.edges fun w e he => nested_source he).symm
  · rw [cost_potential h (f.pot 0 0) (pot_none f 0 0 (by simp [Has]))
      (pot_none f 0 0 (by simp [Has])) ?_ (fun u e he => (nested_sink hA he).1), hsum]
    · rfl
    · intro u v e he hv
      rcases nested_mem he with ⟨rfl, rfl, rfl⟩ | ⟨rfl, rfl, rfl⟩ | he
      · rw [pot_none f 0 0 (v := .source) (by simp [Has]),
          pot_none f 0 0 (show ¬ f.Has (.node root) from hA.limit)]
        simp
      · rw [pot_none f 0 0 (show ¬ f.Has (.node root) from hA.limit), pot_none f 0 0 hA.limit]
        simp
      · rw [(edges_pot f root 0 0 hA _ he).1 hv]
        simp only
        split_ifs with hu
        · rw [hu, pot_none f 0 0 hA.limit]
        · rfl

end Graph

/-! ### Flows for given amounts -/

/-- The flow that gives `x a` to each account `a`. -/
def Forest.loads (x : A → ℤ) : N → Forest N A → List ((G N A × G N A) × ℤ)
  | _, nil => []
  | p, leaf n a r => ((.limit p, .node n), x a) :: ((.node n, .limit n), x a) ::
      ((.limit n, .acct a), x a) :: ((.acct a, .sink), x a) :: r.loads x p
  | p, node n c r => ((.limit p, .node n), (c.accs.map x).sum) ::
      ((.node n, .limit n), (c.accs.map x).sum) :: (c.loads x n ++ r.loads x p)

/-- What the entries for a vertex add up to. -/
def inSum (L : List ((G N A × G N A) × ℤ)) (v : G N A) : ℤ :=
  (L.map fun e => if e.1.2 = v then e.2 else 0).sum

/-- What the entries for a vertex add up to. -/
def outSum (L : List ((G N A × G N A) × ℤ)) (v : G N A) : ℤ :=
  (L.map fun e => if e.1.1 = v then e.2 else 0).sum

theorem Forest.loads_net (x : A → ℤ) (f : Forest N A) (p : N) (v : G N A) :
    inSum (f.loads x p) v + (if .limit p = v then (f.accs.map x).sum else 0) =
      outSum (f.loads x p) v + (if .sink = v then (f.accs.map x).sum else 0) := by
  induction f generalizing p with
  | nil => simp [loads, inSum, outSum, accs]
  | leaf n a r ih =>
    have := ih p
    simp only [loads, inSum, outSum, accs, List.map_cons, List.sum_cons] at this ⊢
    split_ifs at this ⊢ <;> omega
  | node n c r ihc ihr =>
    have h1 := ihc n
    have h2 := ihr p
    simp only [loads, inSum, outSum, accs, List.map_cons, List.sum_cons, List.map_append,
      List.sum_append] at h1 h2 ⊢
    split_ifs at h1 h2 ⊢ <;> omega

/-- Loads and edges go together. -/
theorem Forest.loads_edges {cap : A → Option ℤ} {M : ℤ} (x : A → ℤ) (f : Forest N A) (p : N)
    (w : ℤ) (h0 : ∀ a ∈ f.accs, 0 ≤ x a) (hcap : ∀ a ∈ f.accs, ∀ k, cap a = some k → x a ≤ k)
    (hM : (f.accs.map x).sum ≤ M) :
    List.Forall₂ (fun e l => e.1 = l.1 ∧ 0 ≤ l.2 ∧ ∀ k, e.2.capacity = some k → l.2 ≤ k)
      (f.edges cap M p w) (f.loads x p) := by
  have hs : ∀ f : Forest N A, (∀ a ∈ f.accs, 0 ≤ x a) → 0 ≤ (f.accs.map x).sum := by
    intro f hf
    apply List.sum_nonneg
    intro y hy
    obtain ⟨a, ha, rfl⟩ := List.mem_map.1 hy
    exact hf a ha
  induction f generalizing p w with
  | nil => simp [edges, loads]
  | leaf n a r ih =>
    simp only [accs, List.map_cons, List.sum_cons] at hM
    have ha0 : 0 ≤ x a := h0 a (by simp [accs])
    have hr0 : ∀ b ∈ r.accs, 0 ≤ x b := fun b hb => h0 b (by simp [accs, hb])
    have := hs r hr0
    simp only [edges, loads, List.forall₂_cons]
    refine ⟨⟨trivial, ha0, by simp; omega⟩, ⟨trivial, ha0, by simp⟩, ⟨trivial, ha0, by simp; omega⟩,
      ⟨trivial, ha0, fun k hk => hcap a (by simp [accs]) k hk⟩, ?_⟩
    exact ih p _ hr0 (fun b hb => hcap b (by simp [accs, hb])) (by omega)
  | node n c r ihc ihr =>
    simp only [accs, List.map_append, List.sum_append] at hM
    have hc0 : ∀ b ∈ c.accs, 0 ≤ x b := fun b hb => h0 b (by simp [accs, hb])
    have hr0 : ∀ b ∈ r.accs, 0 ≤ x b := fun b hb => h0 b (by simp [accs, hb])
    have h1 := hs c hc0
    have h2 := hs r hr0
    simp only [edges, loads, List.forall₂_cons]
    refine ⟨⟨trivial, h1, by simp; omega⟩, ⟨trivial, h1, by simp⟩, ?_⟩
    exact List.rel_append
      (ihc n _ hc0 (fun b hb => hcap b (by simp [accs, hb])) (by omega))
      (ihr p _ hr0 (fun b hb => hcap b (by simp [accs, hb])) (by omega))

theorem Forest.loads_acct (x : A → ℤ) (f : Forest N A) (p : N) :
    ∀ a ∈ f.accs, ((.acct a, .sink), x a) ∈ f.loads x p := by
  induction f generalizing p with
  | nil => intro a ha; simp [accs] at ha
  | leaf n b r ih =>
    intro a ha
    simp only [accs, List.mem_cons] at ha
    simp only [loads, List.mem_cons]
    rcases ha with rfl | ha
    · simp
    · exact .inr (.inr (.inr (.inr (ih p a ha))))
  | node n c r ihc ihr =>
    intro a ha
    simp only [accs, List.mem_append] at ha
    simp only [loads, List.mem_cons, List.mem_append]
    rcases ha with ha | ha
    · exact .inr (.inr (.inl (ihc n a ha)))
    · exact .inr (.inr (.inr (ihr p a ha)))

/-- Sums of a dict of edges over one end. -/
theorem sum_val_in {L : Dict (G N A × G N A) ℤ} (hw : Dict.WF L) {S : Finset (G N A)}
    (hS : ∀ e ∈ L, e.1.1 ∈ S) (v : G N A) :
    ∑ u ∈ S, Dict.val L (u, v) = inSum L v := by
  induction L with
  | nil => simp [inSum, Dict.val]
  | cons e L ih =>
    obtain ⟨h1, h2⟩ := Dict.wf_cons.1 hw
    have hterm : ∀ u, Dict.val (e :: L) (u, v) =
        (if u = e.1.1 then (if e.1.2 = v then e.2 else 0) else 0) + Dict.val L (u, v) := by
      intro u
      have hv : Dict.val (e :: L) (u, v) = if e.1 = (u, v) then e.2 else Dict.val L (u, v) := by
        unfold Dict.val
        rw [Dict.get?_cons]
        split_ifs <;> rfl
      rw [hv]
      by_cases hu : u = e.1.1
      · subst hu
        by_cases hv : e.1.2 = v
        · subst hv
          rw [if_pos rfl, if_pos rfl, if_pos rfl, Dict.val_of_not_mem h1, add_zero]
        · rw [if_neg (fun h => hv (by rw [h])), if_pos rfl, if_neg hv, zero_add]
      · rw [if_neg (fun h => hu (by rw [h])), if_neg hu, zero_add]
    rw [Finset.sum_congr rfl fun u _ => hterm u, Finset.sum_add_distrib, Finset.sum_ite_eq',
      if_pos (hS e (by simp)), ih h2 fun x hx => hS x (by simp [hx])]
    simp [inSum]

theorem sum_val_out {L : Dict (G N A × G N A) ℤ} (hw : Dict.WF L) {S : Finset (G N A)}
    (hS : ∀ e ∈ L, e.1.2 ∈ S) (v : G N A) :
    ∑ u ∈ S, Dict.val L (v, u) = outSum L v := by
  induction L with
  | nil => simp [outSum, Dict.val]
  | cons e L ih =>
    obtain ⟨h1, h2⟩ := Dict.wf_cons.1 hw
    have hterm : ∀ u, Dict.val (e :: L) (v, u) =
        (if u = e.1.2 then (if e.1.1 = v then e.2 else 0) else 0) + Dict.val L (v, u) := by
      intro u
      have hv : Dict.val (e :: L) (v, u) = if e.1 = (v, u) then e.2 else Dict.val L (v, u) := by
        unfold Dict.val
        rw [Dict.get?_cons]
        split_ifs <;> rfl
      rw [hv]
      by_cases hu : u = e.1.2
      · subst hu
        by_cases hv : e.1.1 = v
        · subst hv
          rw [if_pos rfl, if_pos rfl, if_pos rfl, Dict.val_of_not_mem h1, add_zero]
        · rw [if_neg (fun h => hv (by rw [h])), if_pos rfl, if_neg hv, zero_add]
      · rw [if_neg (fun h => hu (by rw [h])), if_neg hu, zero_add]
    rw [Finset.sum_congr rfl fun u _ => hterm u, Finset.sum_add_distrib, Finset.sum_ite_eq',
      if_pos (hS e (by simp)), ih h2 fun x hx => hS x (by simp [hx])]
    simp [outSum]

section Give

variable {root : N} {cap : A → Option ℤ} {T : ℤ} {f : Forest N A}

/-- The whole flow. -/
def giveLoads (root : N) (f : Forest N A) (x : A → ℤ) : Dict (G N A × G N A) ℤ :=
  ((.source, .node root), (f.accs.map x).sum) :: ((.node root, .limit root), (f.accs.map x).sum) ::
    f.loads x root

theorem forall₂_keys {L : Graph N A} {M : Dict (G N A × G N A) ℤ}
    {P : Edge → ℤ → Prop} (h : List.Forall₂ (fun e l => e.1 = l.1 ∧ P e.2 l.2) L M) :
    Dict.keys L = Dict.keys M ∧
    (∀ k e, (k, e) ∈ L → ∃ l, (k, l) ∈ M ∧ P e l) ∧ ∀ k l, (k, l) ∈ M → ∃ e, P e l := by
  induction h with
  | nil => simp
  | @cons a b l m hab _ ih =>
    obtain ⟨h1, h2, h3⟩ := ih
    refine ⟨by simp [hab.1, h1], ?_, ?_⟩
    · intro k e he
      rcases List.mem_cons.1 he with rfl | he
      · exact ⟨b.2, by rw [show k = b.1 from hab.1]; simp, hab.2⟩
      · obtain ⟨x, hx, hp⟩ := h2 k e he
        exact ⟨x, by simp [hx], hp⟩
    · intro k x hx
      rcases List.mem_cons.1 hx with rfl | hx
      · exact ⟨a.2, hab.2⟩
      · exact h3 k x hx

/-- Any amounts within the capacities and the supply can be given. -/
theorem give_isFlow (hA : Apart root f) (hT : 0 ≤ T) (x : A → ℤ) (h0 : ∀ a ∈ f.accs, 0 ≤ x a)
    (hcap : ∀ a ∈ f.accs, ∀ k, cap a = some k → x a ≤ k) (hsum : (f.accs.map x).sum ≤ T) :
    IsFlow (nestedGraph root cap T f) (fun u v => Dict.val (giveLoads root f x) (u, v)) ∧
    ∀ a ∈ f.accs, Dict.val (giveLoads root f x) (.acct a, .sink) = x a := by
  have hs0 : 0 ≤ (f.accs.map x).sum := by
    apply List.sum_nonneg
    intro y hy
    obtain ⟨a, ha, rfl⟩ := List.mem_map.1 hy
    exact h0 a ha
  have hall : List.Forall₂ (fun e l => e.1 = l.1 ∧ (0 ≤ l.2 ∧ ∀ k, e.2.capacity = some k → l.2 ≤ k))
      (nestedGraph root cap T f) (giveLoads root f x) := by
    unfold nestedGraph giveLoads
    rw [List.forall₂_cons, List.forall₂_cons]
    refine ⟨⟨rfl, hs0, by simp; omega⟩, ⟨rfl, hs0, by simp⟩, ?_⟩
    exact loads_edges x f root 0 h0 hcap (by rw [abs_of_nonneg hT]; exact hsum)
  obtain ⟨hk, hL, hM⟩ := forall₂_keys (P := fun e l => 0 ≤ l ∧ ∀ k, e.capacity = some k → l ≤ k) hall
  have hw : Dict.WF (giveLoads root f x) := by
    have := nested_wf (cap := cap) (T := T) hA
    unfold Dict.WF at this ⊢
    rwa [← hk]
  have hends : ∀ e ∈ giveLoads root f x,
      e.1.1 ∈ verts (nestedGraph root cap T f) ∧ e.1.2 ∈ verts (nestedGraph root cap T f) := by
    intro e he
    have : e.1 ∈ Dict.keys (nestedGraph root cap T f) := by
      rw [hk]; exact Dict.mem_keys_of_mem he
    obtain ⟨y, hy⟩ := Dict.mem_keys_iff.1 this
    exact mem_verts_left (u := e.1.1) (v := e.1.2) hy
  refine ⟨⟨?_, ?_, ?_, ?_⟩, ?_⟩
  · intro u v
    simp only [Dict.val]
    cases hx : Dict.get? (giveLoads root f x) (u, v) with
    | none => simp
    | some l => obtain ⟨e, he⟩ := hM _ _ (Dict.mem_of_get? hx); simpa using he.1
  · intro u v e c he hc
    obtain ⟨l, hl, hp⟩ := hL _ _ (Dict.mem_of_get? he)
    simp only [Dict.val]
    rw [Dict.get?_of_mem hw hl]
    exact hp.2 c hc
  · intro u v huv
    apply Dict.val_of_not_mem
    rw [← hk]
    exact Dict.get?_eq_none.1 huv
  · intro v hv hv'
    rw [sum_val_in hw (fun e he => (hends e he).1), sum_val_out hw (fun e he => (hends e he).2)]
    have := loads_net x f root v
    have hv1 : ¬ G.source = v := fun h => hv h.symm
    have hv2 : ¬ G.sink = v := fun h => hv' h.symm
    simp only [giveLoads, inSum, outSum, List.map_cons, List.sum_cons, hv1, hv2, if_false] at this ⊢
    split_ifs at this ⊢ <;> omega
  · intro a ha
    unfold Dict.val
    rw [Dict.get?_of_mem hw (v := x a)]
    · rfl
    · simp only [giveLoads, List.mem_cons]
      exact .inr (.inr (loads_acct x f root a ha))

end Give

/-! ### Optimal flows -/

section Optimal

variable {root : N} {cap : A → Option ℤ} {T : ℤ} {f : Forest N A}

/-- **Optimal flows through nested lists**: nothing is left over while an account has room, and an
account with room rules out flows to accounts with a larger penalty. -/
theorem forest_optimal (hA : Apart root f) {fl : Flows N A}
    (hf : MinCostMaxFlow (nestedGraph root cap T f) fl) :
    0 ≤ T ∧
    (∀ a ∈ f.accs, 0 ≤ out (nestedGraph root cap T f) fl (.acct a) ∧
      Within (cap a) (out (nestedGraph root cap T f) fl (.acct a))) ∧
    (f.accs.map fun a => out (nestedGraph root cap T f) fl (.acct a)).sum ≤ T ∧
    (∀ a ∈ f.accs, Room (cap a) (out (nestedGraph root cap T f) fl (.acct a)) →
      (f.accs.map fun a => out (nestedGraph root cap T f) fl (.acct a)).sum = T) ∧
    (∀ a ∈ f.accs, ∀ b ∈ f.accs, f.pen a < f.pen b →
      Room (cap a) (out (nestedGraph root cap T f) fl (.acct a)) →
      out (nestedGraph root cap T f) fl (.acct b) = 0) ∧
    flow fl .source (.node root) =
      (f.accs.map fun a => out (nestedGraph root cap T f) fl (.acct a)).sum := by
  set g := nestedGraph root cap T f with hg
  have hFf := hf.feasible.isFlow
  obtain ⟨hval, hsrc, hcost⟩ := nested_flow hA hFf
  set x : A → ℤ := fun a => flow fl (.acct a) .sink with hx
  have hval2 : value g (flow fl) = ∑ a ∈ f.accs.toFinset, x a := hval
  have hcost2 : cost g (flow fl) = ∑ a ∈ f.accs.toFinset, f.pen a * x a := hcost
  have hout : ∀ a, out g fl (.acct a) = x a := fun a =>
    sum_out hFf.edges fun w e he => nested_out_acct he
  simp only [hout]
  have hlist : ∀ y : A → ℤ, (f.accs.map y).sum = ∑ a ∈ f.accs.toFinset, y a := fun y =>
    (List.sum_toFinset y hA.accs).symm
  have hT : flow fl .source (.node root) ≤ T := by
    apply hf.feasible.capacity _ _ ⟨some T, none⟩ T _ rfl
    rw [hg, nestedGraph, Dict.get?_cons, if_pos rfl]
  have hT0 : 0 ≤ T := (hf.feasible.nonneg _ _).trans hT
  have h0 : ∀ a ∈ f.accs, 0 ≤ x a := fun a _ => hf.feasible.nonneg _ _
  have hsrc' : flow fl .source (.node root) = (f.accs.map x).sum := by rw [hlist]; exact hsrc
  have hsum : (f.accs.map x).sum ≤ T := by rw [← hsrc']; exact hT
  have hcap : ∀ a ∈ f.accs, ∀ k, cap a = some k → x a ≤ k := fun a ha k hk =>
    hf.feasible.capacity _ _ _ k (nested_acct hA ha) hk
  have hgive : ∀ y : A → ℤ, (∀ a ∈ f.accs, 0 ≤ y a) →
      (∀ a ∈ f.accs, ∀ k, cap a = some k → y a ≤ k) → (f.accs.map y).sum ≤ T →
      ∃ F, IsFlow g F ∧ value g F = ∑ a ∈ f.accs.toFinset, y a ∧
        cost g F = ∑ a ∈ f.accs.toFinset, f.pen a * y a := by
    intro y h1 h2 h3
    obtain ⟨h4, h5⟩ := give_isFlow hA hT0 y h1 h2 h3
    obtain ⟨h6, -, h7⟩ := nested_flow hA h4
    refine ⟨_, h4, ?_, ?_⟩
    · rw [h6]
      exact Finset.sum_congr rfl fun a ha => h5 a (by simpa using ha)
    · rw [h7]
      exact Finset.sum_congr rfl fun a ha => by rw [h5 a (by simpa using ha)]
  have hupd : ∀ (y : A → ℤ) (c : A) (v : ℤ) (k : A → ℤ), c ∈ f.accs →
      ∑ d ∈ f.accs.toFinset, k d * Function.update y c v d =
        ∑ d ∈ f.accs.toFinset, k d * y d + k c * (v - y c) := by
    intro y c v k hc
    have hc' : c ∈ f.accs.toFinset := by simpa using hc
    rw [← Finset.add_sum_erase _ _ hc',
      ← Finset.add_sum_erase f.accs.toFinset (fun d => k d * y d) hc']
    have : ∑ d ∈ f.accs.toFinset.erase c, k d * Function.update y c v d =
        ∑ d ∈ f.accs.toFinset.erase c, k d * y d := by
      apply Finset.sum_congr rfl
      intro d hd
      rw [Function.update_of_ne (Finset.ne_of_mem_erase hd)]
    rw [this, Function.update_self]
    ring
  have hupd1 : ∀ (y : A → ℤ) (c : A) (v : ℤ), c ∈ f.accs →
      ∑ d ∈ f.accs.toFinset, Function.update y c v d = ∑ d ∈ f.accs.toFinset, y d + (v - y c) := by
    intro y c v hc
    simpa using hupd y c v (fun _ => 1) hc
  refine ⟨hT0, fun a ha => ⟨h0 a ha, ?_⟩, hsum, ?_, ?_, hsrc'⟩
  · cases hk : cap a with
    | none => trivial
    | some k => exact hcap a ha k hk
  · intro c hc hr
    by_contra hne
    have hlt : (f.accs.map x).sum < T := lt_of_le_of_ne hsum hne
    obtain ⟨F, hF, hv, -⟩ := hgive (Function.update x c (x c + 1)) (by
      intro d hd
      by_cases hdc : d = c
      · subst hdc; rw [Function.update_self]; have := h0 d hd; omega
      · rw [Function.update_of_ne hdc]; exact h0 d hd) (by
      intro d hd k hk
      by_cases hdc : d = c
      · subst hdc
        rw [hk] at hr
        rw [Function.update_self]; exact hr
      · rw [Function.update_of_ne hdc]; exact hcap d hd k hk) (by
      rw [hlist, hupd1 _ _ _ hc, ← hlist]; omega)
    have := hf.maximal _ hF
    rw [hv, hval2, hupd1 _ _ _ hc] at this
    omega
  · intro c hc d hd hpen hr
    have hcd : d ≠ c := by rintro rfl; exact lt_irrefl _ hpen
    by_contra hne
    have hpos : 0 < x d := lt_of_le_of_ne (h0 d hd) (Ne.symm hne)
    set y := Function.update (Function.update x c (x c + 1)) d (x d - 1) with hy
    have yd : y d = x d - 1 := by rw [hy, Function.update_self]
    have yc : y c = x c + 1 := by
      rw [hy, Function.update_of_ne hcd.symm, Function.update_self]
    have yo : ∀ e, e ≠ c → e ≠ d → y e = x e := by
      intro e h1 h2
      rw [hy, Function.update_of_ne h2, Function.update_of_ne h1]
    have hysum : ∀ k : A → ℤ, ∑ e ∈ f.accs.toFinset, k e * y e =
        ∑ e ∈ f.accs.toFinset, k e * x e + k c - k d := by
      intro k
      rw [hy, hupd _ _ _ _ hd, hupd _ _ _ _ hc, Function.update_of_ne hcd]
      ring
    have hysum1 : ∑ e ∈ f.accs.toFinset, y e = ∑ e ∈ f.accs.toFinset, x e := by
      have := hysum (fun _ => 1)
      simpa using this
    obtain ⟨F, hF, hv, hc'⟩ := hgive y (by
      intro e he
      by_cases h1 : e = c
      · rw [h1, yc]; have := h0 c hc; omega
      · by_cases h2 : e = d
        · rw [h2, yd]; omega
        · rw [yo e h1 h2]; exact h0 e he) (by
      intro e he k hk
      by_cases h1 : e = c
      · rw [h1] at hk ⊢
        rw [hk] at hr
        rw [yc]; exact hr
      · by_cases h2 : e = d
        · rw [h2] at hk ⊢; rw [yd]; have := hcap d hd k hk; omega
        · rw [yo e h1 h2]; exact hcap e he k hk) (by rw [hlist, hysum1, ← hlist]; exact hsum)
    have h1 := hf.cheapest _ hF (by rw [hv, hval2, hysum1])
    rw [hc', hcost2, hysum] at h1
    omega

end Optimal

/-! ### When the penalties follow the order of the lists -/

/-- Specification: at most one entry, which is an account or again such a list. -/
def Forest.Single : Forest N A → Prop
  | nil => True
  | leaf _ _ r => r = nil
  | node _ c r => c.Single ∧ r = nil

/-- Specification: only the first and the last entry of a list may be lists of more than one
account. (`first` tells whether the forest starts with the first entry.) -/
def Forest.EdgesOnly : Bool → Forest N A → Prop
  | _, nil => True
  | _, leaf _ _ r => r.EdgesOnly false
  | first, node _ c r => c.EdgesOnly true ∧ r.EdgesOnly false ∧
      (first = true ∨ r = nil ∨ c.Single)

theorem Forest.sumW_nonneg (f : Forest N A) (w : ℤ) (hw : 0 ≤ w) : 0 ≤ f.sumW w := by
  induction f generalizing w with
  | nil => simp [sumW]
  | leaf n a r ih =>
    rw [sumW]
    have := ih (max w 0 + 1) (by omega)
    omega
  | node n c r ihc ihr =>
    rw [sumW]
    have h1 := ihc 0 le_rfl
    have h2 := ihr (max w (c.sumW 0) + 1) (by omega)
    omega

theorem Forest.pens_bounds (f : Forest N A) (b w : ℤ) (hw : 0 ≤ w) :
    ∀ e ∈ f.pens b w, b + w ≤ e.2 ∧ e.2 ≤ b + f.sumW w := by
  induction f generalizing b w with
  | nil => intro e he; simp [pens] at he
  | leaf n a r ih =>
    intro e he
    have hr := sumW_nonneg r (max w 0 + 1) (by omega)
    rw [pens, List.mem_cons] at he
    rw [sumW]
    rcases he with rfl | he
    · simp only; omega
    · have := ih b (max w 0 + 1) (by omega) e he
      omega
  | node n c r ihc ihr =>
    intro e he
    have hc := sumW_nonneg c 0 le_rfl
    have hr := sumW_nonneg r (max w (c.sumW 0) + 1) (by omega)
    rw [pens, List.mem_append] at he
    rw [sumW]
    rcases he with he | he
    · have := ihc (b + w) 0 le_rfl e he
      omega
    · have := ihr b (max w (c.sumW 0) + 1) (by omega) e he
      omega

theorem Forest.Single.sumW {f : Forest N A} (h : f.Single) : f.sumW 0 = 0 := by
  induction f with
  | nil => rfl
  | leaf n a r _ =>
    rw [Single] at h
    subst h; simp [Forest.sumW]
  | node n c r ihc _ =>
    obtain ⟨h1, h2⟩ := h
    subst h2
    rw [Forest.sumW, ihc h1]; simp [Forest.sumW]

theorem Forest.pens_increasing (f : Forest N A) (first : Bool) (b w : ℤ) (hw : 0 ≤ w)
    (hfirst : first = true → w = 0) (h : f.EdgesOnly first) :
    (f.pens b w).Pairwise fun e e' => e.2 < e'.2 := by
  induction f generalizing first b w with
  | nil => simp [pens]
  | leaf n a r ih =>
    rw [pens, List.pairwise_cons]
    refine ⟨fun e he => ?_, ih false b _ (by omega) (by simp) h⟩
    have := pens_bounds r b (max w 0 + 1) (by omega) e he
    simp only; omega
  | node n c r ihc ihr =>
    obtain ⟨h1, h2, h3⟩ := h
    rw [pens, List.pairwise_append]
    have hc := sumW_nonneg c 0 le_rfl
    refine ⟨ihc true _ 0 le_rfl (by simp) h1, ihr false b _ (by omega) (by simp) h2, ?_⟩
    intro e he e' he'
    have q1 := pens_bounds c (b + w) 0 le_rfl e he
    have q2 := pens_bounds r b (max w (c.sumW 0) + 1) (by omega) e' he'
    rcases h3 with h3 | h3 | h3
    · have := hfirst h3; omega
    · subst h3; simp [pens] at he'
    · have := h3.sumW; omega

theorem Forest.pen_increasing {f : Forest N A} {p : N} (hA : Apart p f) (h : f.EdgesOnly true) :
    f.accs.Pairwise fun a b => f.pen a < f.pen b := by
  have h1 := pens_increasing f true 0 0 le_rfl (fun _ => rfl) h
  rw [← pens_accs f 0 0, List.pairwise_map]
  refine List.Pairwise.imp_of_mem ?_ h1
  intro e e' he he' hlt
  unfold pen
  rw [(pot_pens f p 0 0 hA e he).1, (pot_pens f p 0 0 hA e' he').1]
  exact hlt

end Forecaster.Traversal
