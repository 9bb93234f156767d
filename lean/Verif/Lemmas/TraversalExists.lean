import Verif.Lemmas.TraversalOpt
import Mathlib.Data.Int.LeastGreatest
import Mathlib.Data.List.Dedup

/-!
# Every bounded network has a flow of maximal value and minimal cost

So what is asked of `networkx.max_flow_min_cost` can be met.
-/

set_option linter.unusedSectionVars false

namespace Forecaster.Traversal

open Forecaster Forecaster.Timing

variable {N A : Type} [DecidableEq N] [DecidableEq A]

/-- Specification: an edge on which the flow is unlimited. -/
def FreeEdge (g : Graph N A) (u v : G N A) : Prop :=
  ∃ e, Dict.get? g (u, v) = some e ∧ e.capacity = none

/-- Specification: a network that `networkx.max_flow_min_cost` accepts: source and sink are
in it, nothing enters the source or leaves the sink, capacities and weights are not negative, and
no path from the source to the sink is unlimited. -/
structure Solvable (g : Graph N A) : Prop where
  wf : Dict.WF g
  source : ∃ v, (.source, v) ∈ Dict.keys g
  sink : ∃ u, (u, .sink) ∈ Dict.keys g
  ends : ∀ e ∈ g, e.1.2 ≠ .source ∧ e.1.1 ≠ .sink
  capacity : ∀ k e c, Dict.get? g k = some e → e.capacity = some c → 0 ≤ c
  weight : ∀ k e w, Dict.get? g k = some e → e.weight = some w → 0 ≤ w
  bounded : ¬ Relation.ReflTransGen (FreeEdge g) .source .sink

/-- Specification: the flow of every edge is reported. -/
def Reports (g : Graph N A) (f : Flows N A) : Prop :=
  ∀ u v, (u, v) ∈ Dict.keys g → ∃ d x, Dict.get? f u = some d ∧ Dict.get? d v = some x

theorem zero_isFlow {g : Graph N A} (h : Solvable g) : IsFlow g fun _ _ => 0 :=
  ⟨fun _ _ => le_rfl, fun _ _ e c he hc => h.capacity _ e c he hc, fun _ _ _ => rfl,
    fun _ _ _ => by simp⟩

open Classical in
/-- The flow that passes a cut is limited. -/
theorem value_bounded {g : Graph N A} (h : Solvable g) :
    ∃ b : ℤ, ∀ F, IsFlow g F → value g F ≤ b := by
  let S : G N A → Prop := Relation.ReflTransGen (FreeEdge g) .source
  let p : G N A → ℤ := fun u => if S u then 1 else 0
  let cap : G N A → G N A → ℤ := fun u v => (((Dict.get? g (u, v)).bind Edge.capacity).getD 0)
  refine ⟨∑ u ∈ verts g, ∑ v ∈ verts g, cap u v, fun F hF => ?_⟩
  have h1 := potential_sum h.ends hF p
  have hs : p .source = 1 := if_pos Relation.ReflTransGen.refl
  have ht : p .sink = 0 := if_neg h.bounded
  rw [hs, ht, sub_zero, one_mul] at h1
  rw [← h1]
  apply Finset.sum_le_sum
  intro u _
  apply Finset.sum_le_sum
  intro v _
  have hcap : 0 ≤ cap u v := by
    simp only [cap]
    cases he : Dict.get? g (u, v) with
    | none => simp
    | some e =>
      cases hc : e.capacity with
      | none => simp [hc]
      | some c => simpa [hc] using h.capacity _ e c he hc
  by_cases hu : S u
  · by_cases hv : S v
    · simp [p, hu, hv, hcap]
    · simp only [p, hu, hv, if_true, if_false, sub_zero, one_mul]
      cases he : Dict.get? g (u, v) with
      | none => rw [hF.edges _ _ he]; exact hcap
      | some e =>
        cases hc : e.capacity with
        | none => exact absurd (Relation.ReflTransGen.tail hu ⟨e, he, hc⟩) hv
        | some c => simpa [cap, he, hc] using hF.capacity u v e c he hc
  · have h0 := hF.nonneg u v
    by_cases hv : S v
    · simp only [p, hu, hv, if_true, if_false]; linarith
    · simp [p, hu, hv, hcap]

theorem cost_nonneg {g : Graph N A} (h : Solvable g) {F : G N A → G N A → ℤ} (hF : IsFlow g F) :
    0 ≤ cost g F := by
  apply Finset.sum_nonneg
  intro u _
  apply Finset.sum_nonneg
  intro v _
  refine mul_nonneg ?_ (hF.nonneg u v)
  unfold weight
  cases he : Dict.get? g (u, v) with
  | none => simp
  | some e =>
    cases hc : e.weight with
    | none => simp [hc]
    | some c => simpa [hc] using h.weight _ e c he hc

/-- A flow as a dict of dicts. -/
def reported (g : Graph N A) (F : G N A → G N A → ℤ) : Flows N A :=
  ((Dict.keys g).map Prod.fst).dedup.map fun u =>
    (u, (((Dict.keys g).filter fun k => decide (k.1 = u)).map fun k => (k.2, F u k.2)))

theorem get?_map_of_mem {κ ν : Type} [DecidableEq κ] {l : List κ} {φ : κ → ν} {k : κ} (h : k ∈ l) :
    Dict.get? (l.map fun u => (u, φ u)) k = some (φ k) := by
  induction l with
  | nil => simp at h
  | cons a l ih =>
    rw [List.map_cons, Dict.get?_cons]
    by_cases hk : a = k
    · subst hk; simp
    · rw [if_neg hk]
      exact ih ((List.mem_cons.1 h).resolve_left (fun e => hk e.symm))

theorem get?_map_not_mem {κ ν : Type} [DecidableEq κ] {l : List κ} {φ : κ → ν} {k : κ} (h : k ∉ l) :
    Dict.get? (l.map fun u => (u, φ u)) k = none := by
  rw [Dict.get?_eq_none]
  simpa [Dict.keys] using h

theorem reported_inner (g : Graph N A) (F : G N A → G N A → ℤ) (u : G N A) :
    (((Dict.keys g).filter fun k => decide (k.1 = u)).map fun k => (k.2, F u k.2)) =
      ((((Dict.keys g).filter fun k => decide (k.1 = u)).map Prod.snd).map
        fun v => (v, F u v)) := by
  simp [List.map_map, Function.comp_def]

theorem reported_flow {g : Graph N A} {F : G N A → G N A → ℤ} (hF : IsFlow g F) (u v : G N A) :
    flow (reported g F) u v = F u v := by
  unfold flow flowsTo
  by_cases hu : u ∈ (Dict.keys g).map Prod.fst
  · rw [reported, get?_map_of_mem (List.mem_dedup.2 hu)]
    simp only [reported_inner, Dict.val]
    by_cases hv : v ∈ (((Dict.keys g).filter fun k => decide (k.1 = u)).map Prod.snd)
    · rw [get?_map_of_mem hv]; rfl
    · rw [get?_map_not_mem hv]
      refine (hF.edges u v ?_).symm
      rw [Dict.get?_eq_none]
      intro hk
      exact hv (List.mem_map.2 ⟨(u, v), List.mem_filter.2 ⟨hk, by simp⟩, rfl⟩)
  · rw [reported, get?_map_not_mem (fun h => hu (List.mem_dedup.1 h))]
    refine (hF.edges u v ?_).symm
    rw [Dict.get?_eq_none]
    intro hk
    exact hu (List.mem_map.2 ⟨(u, v), hk, rfl⟩)

theorem reported_reports (g : Graph N A) (F : G N A → G N A → ℤ) : Reports g (reported g F) := by
  intro u v hk
  refine ⟨_, F u v, get?_map_of_mem (List.mem_dedup.2 (List.mem_map.2 ⟨(u, v), hk, rfl⟩)), ?_⟩
  rw [reported_inner, get?_map_of_mem]
  exact List.mem_map.2 ⟨(u, v), List.mem_filter.2 ⟨hk, by simp⟩, rfl⟩

theorem reported_feasible {g : Graph N A} (hg : Dict.WF g) {F : G N A → G N A → ℤ}
    (hF : IsFlow g F) : Feasible g (reported g F) := by
  refine ⟨⟨?_, ?_⟩, ?_, ?_, ?_, ?_⟩
  · unfold Dict.WF Dict.keys reported
    rw [List.map_map]
    have : (Prod.fst ∘ fun u : G N A => (u, (((Dict.keys g).filter fun k =>
      decide (k.1 = u)).map fun k => (k.2, F u k.2)))) = id := rfl
    rw [this, List.map_id]
    exact List.nodup_dedup _
  · intro u d hd
    have hm := Dict.mem_of_get? hd
    unfold reported at hm
    obtain ⟨u', -, he⟩ := List.mem_map.1 hm
    cases he
    unfold Dict.WF Dict.keys
    rw [List.map_map]
    have : (Prod.fst ∘ fun k : G N A × G N A => (k.2, F u k.2)) = Prod.snd := rfl
    rw [this]
    refine List.Nodup.map_on ?_ (List.Nodup.filter _ hg)
    intro x hx y hy hxy
    have h1 := (List.mem_filter.1 hx).2
    have h2 := (List.mem_filter.1 hy).2
    simp only [decide_eq_true_eq] at h1 h2
    exact Prod.ext (h1.trans h2.symm) hxy
  · intro u v; rw [reported_flow hF]; exact hF.nonneg u v
  · intro u v e c he hc; rw [reported_flow hF]; exact hF.capacity u v e c he hc
  · intro u v he; rw [reported_flow hF]; exact hF.edges u v he
  · intro v h1 h2
    simp only [reported_flow hF]
    exact hF.conserve v h1 h2

/-- **Every network that the algorithm accepts has an optimal flow.** -/
theorem exists_minCostMaxFlow {g : Graph N A} (h : Solvable g) :
    ∃ f, MinCostMaxFlow g f ∧ Reports g f := by
  obtain ⟨b, hb⟩ := value_bounded h
  obtain ⟨m, ⟨F₀, hF₀, rfl⟩, hm⟩ := Int.exists_greatest_of_bdd
    (P := fun z => ∃ F, IsFlow g F ∧ value g F = z) ⟨b, fun z ⟨F, hF, hz⟩ => hz ▸ hb F hF⟩
    ⟨_, _, zero_isFlow h, rfl⟩
  obtain ⟨c, ⟨F₁, hF₁, hv, rfl⟩, hc⟩ := Int.exists_least_of_bdd
    (P := fun z => ∃ F, IsFlow g F ∧ value g F = value g F₀ ∧ cost g F = z)
    ⟨0, fun z ⟨F, hF, _, hz⟩ => hz ▸ cost_nonneg h hF⟩ ⟨_, F₀, hF₀, rfl, rfl⟩
  have e : flow (reported g F₁) = F₁ := by funext u v; exact reported_flow hF₁ u v
  refine ⟨reported g F₁, ⟨reported_feasible h.wf hF₁, ?_, ?_⟩, reported_reports g F₁⟩
  · intro F hF
    rw [e, hv]
    exact hm _ ⟨F, hF, rfl⟩
  · intro F hF hval
    rw [e] at hval ⊢
    exact hc _ ⟨F, hF, hval.trans hv, rfl⟩

end Forecaster.Traversal
