import Verif.Lemmas.TraversalFlat
import Verif.Lemmas.TraversalCheck

/-!
# A flow algorithm with certificates

For concrete cases that ask for flows of maximal value and minimal cost we need a flow algorithm
whose answers provably are.  Any oracle will do, with potentials that certify its answer: one
for the value (a cut) and one for the cost.
-/

set_option linter.unusedSectionVars false

namespace Forecaster.Traversal

open Forecaster Forecaster.Timing

variable {N A : Type} [DecidableEq N] [DecidableEq A]

/-- Complementary slackness of one edge. -/
def SlackEdge (f : Flows N A) (k : G N A → G N A → ℤ) (e : (G N A × G N A) × Edge) : Prop :=
  (0 < k e.1.1 e.1.2 → flow f e.1.1 e.1.2 = 0) ∧
  (k e.1.1 e.1.2 < 0 → e.2.capacity = some (flow f e.1.1 e.1.2))

instance (f : Flows N A) (k : G N A → G N A → ℤ) (e : (G N A × G N A) × Edge) :
    Decidable (SlackEdge f k e) := inferInstanceAs (Decidable (_ ∧ _))

/-- A certificate for `f`: a potential `c` for the value and `p` for the cost. -/
def Certificate (g : Graph N A) (f : Flows N A) (c p : Dict (G N A) ℤ) : Prop :=
  (∀ e ∈ g, e.1.2 ≠ .source ∧ e.1.1 ≠ .sink) ∧
  0 < Dict.val c .sink - Dict.val c .source ∧
  (∀ e ∈ g, SlackEdge f (fun u v => Dict.val c u - Dict.val c v) e) ∧
  (∀ e ∈ g, SlackEdge f (fun u v => weight g u v + Dict.val p u - Dict.val p v) e)

instance (g : Graph N A) (f : Flows N A) (c p : Dict (G N A) ℤ) :
    Decidable (Certificate g f c p) := inferInstanceAs (Decidable (_ ∧ _))

theorem slack_le {g : Graph N A} {f : Flows N A} {k : G N A → G N A → ℤ} (hf : Feasible g f)
    (h : ∀ e ∈ g, SlackEdge f k e) {F : G N A → G N A → ℤ} (hF : IsFlow g F) :
    ∑ u ∈ verts g, ∑ v ∈ verts g, k u v * flow f u v ≤
      ∑ u ∈ verts g, ∑ v ∈ verts g, k u v * F u v := by
  apply Finset.sum_le_sum
  intro u _
  apply Finset.sum_le_sum
  intro v _
  cases he : Dict.get? g (u, v) with
  | none => rw [hf.edges _ _ he, hF.edges _ _ he]
  | some e =>
    obtain ⟨h1, h2⟩ := h _ (Dict.mem_of_get? he)
    simp only at h1 h2
    rcases lt_trichotomy (k u v) 0 with hk | hk | hk
    · have := hF.capacity u v e _ he (h2 hk)
      exact mul_le_mul_of_nonpos_left this hk.le
    · simp [hk]
    · rw [h1 hk, mul_zero]
      exact mul_nonneg hk.le (hF.nonneg _ _)

/-- The value of a flow by potentials. -/
theorem potential_sum {g : Graph N A} (hg : ∀ e ∈ g, e.1.2 ≠ .source ∧ e.1.1 ≠ .sink)
    {F : G N A → G N A → ℤ} (hF : IsFlow g F) (p : G N A → ℤ) :
    ∑ u ∈ verts g, ∑ v ∈ verts g, (p u - p v) * F u v = (p .source - p .sink) * value g F := by
  have hin : ∀ u, F u .source = 0 := fun u => hF.edges _ _ (by
    cases h : Dict.get? g (u, .source) with
    | none => rfl
    | some e => exact absurd rfl (hg _ (Dict.mem_of_get? h)).1)
  have hout : ∀ v, F .sink v = 0 := fun v => hF.edges _ _ (by
    cases h : Dict.get? g (.sink, v) with
    | none => rfl
    | some e => exact absurd rfl (hg _ (Dict.mem_of_get? h)).2)
  have hnv : ∀ u v, u ∉ verts g → F u v = 0 := fun u v hu => hF.edges _ _ (by
    cases h : Dict.get? g (u, v) with
    | none => rfl
    | some e => exact absurd (mem_verts_left h).1 hu)
  have hnv' : ∀ u v, v ∉ verts g → F u v = 0 := fun u v hu => hF.edges _ _ (by
    cases h : Dict.get? g (u, v) with
    | none => rfl
    | some e => exact absurd (mem_verts_left h).2 hu)
  -- what leaves `u` and what arrives
  set O : G N A → ℤ := fun u => ∑ v ∈ verts g, F u v with hO
  set I : G N A → ℤ := fun v => ∑ u ∈ verts g, F u v with hI
  have h1 : ∀ p : G N A → ℤ, ∑ u ∈ verts g, ∑ v ∈ verts g, (p u - p v) * F u v =
      ∑ u ∈ verts g, p u * (O u - I u) := by
    intro p
    simp only [sub_mul, Finset.sum_sub_distrib, mul_sub]
    congr 1
    · simp only [hO, Finset.mul_sum]
    · rw [Finset.sum_comm]; simp only [hI, Finset.mul_sum]
  have hI0 : I .source = 0 := Finset.sum_eq_zero fun u _ => hin u
  have hO0 : O .sink = 0 := Finset.sum_eq_zero fun u _ => hout u
  have hbal : ∀ u, u ≠ .source → u ≠ .sink → O u - I u = 0 := by
    intro u h1 h2
    have := hF.conserve u h1 h2
    simp only [hO, hI]; omega
  have hS : (.source : G N A) ∉ verts g → O .source = 0 := fun h =>
    Finset.sum_eq_zero fun v _ => hnv _ _ h
  have hT : (.sink : G N A) ∉ verts g → I .sink = 0 := fun h =>
    Finset.sum_eq_zero fun v _ => hnv' _ _ h
  have h2 : ∀ p : G N A → ℤ, ∑ u ∈ verts g, p u * (O u - I u) =
      p .source * O .source - p .sink * I .sink := by
    intro p
    have e1 : ∑ u ∈ verts g, p u * (O u - I u) =
        ∑ u ∈ verts g ∪ {.source, .sink}, p u * (O u - I u) := by
      apply Finset.sum_subset Finset.subset_union_left
      intro u hu hn
      rw [Finset.mem_union] at hu
      rcases hu with hu | hu
      · exact absurd hu hn
      · simp only [Finset.mem_insert, Finset.mem_singleton] at hu
        rcases hu with rfl | rfl
        · rw [hS hn, hI0]; ring
        · rw [hT hn, hO0]; ring
    have e2 : ∑ u ∈ verts g ∪ {.source, .sink}, p u * (O u - I u) =
        ∑ u ∈ ({.source, .sink} : Finset (G N A)), p u * (O u - I u) := by
      symm
      apply Finset.sum_subset Finset.subset_union_right
      intro u _ hn
      simp only [Finset.mem_insert, Finset.mem_singleton, not_or] at hn
      rw [hbal u hn.1 hn.2, mul_zero]
    rw [e1, e2, Finset.sum_pair (by simp), hI0, hO0]
    ring
  have h3 : O .source = I .sink := by
    have e := h1 fun _ => 1
    rw [h2] at e
    simp at e
    linarith
  rw [h1, h2, ← h3]
  change _ = (p .source - p .sink) * O .source
  ring

theorem certified_optimal {g : Graph N A} {f : Flows N A} {c p : Dict (G N A) ℤ}
    (hf : Feasible g f) (h : Certificate g f c p) : MinCostMaxFlow g f := by
  obtain ⟨h1, h2, h3, h4⟩ := h
  refine ⟨hf, fun F hF => ?_, fun F hF hv => ?_⟩
  · have := slack_le hf h3 hF
    rw [potential_sum h1 hf.isFlow (fun u => Dict.val c u),
      potential_sum h1 hF (fun u => Dict.val c u)] at this
    nlinarith
  · have := slack_le hf h4 hF
    have hs : ∀ F : G N A → G N A → ℤ, ∑ u ∈ verts g, ∑ v ∈ verts g,
        (weight g u v + Dict.val p u - Dict.val p v) * F u v =
        cost g F + ∑ u ∈ verts g, ∑ v ∈ verts g, (Dict.val p u - Dict.val p v) * F u v := by
      intro F
      unfold cost
      rw [← Finset.sum_add_distrib]
      apply Finset.sum_congr rfl
      intro u _
      rw [← Finset.sum_add_distrib]
      apply Finset.sum_congr rfl
      intro v _
      ring
    rw [hs, hs, potential_sum h1 hf.isFlow (fun u => Dict.val p u),
      potential_sum h1 hF (fun u => Dict.val p u), hv] at this
    linarith

/-- Is there room on this edge? -/
def roomOn (f : Flows N A) (e : (G N A × G N A) × Edge) : Bool :=
  match e.2.capacity with
  | none => true
  | some c => decide (flow f e.1.1 e.1.2 < c)

/-- Shorten distances along one edge and back. -/
def relax (f : Flows N A) (k : Edge → ℤ) (d : Dict (G N A) ℤ) (e : (G N A × G N A) × Edge) :
    Dict (G N A) ℤ :=
  let d := if roomOn f e ∧ Dict.val d e.1.1 + k e.2 < Dict.val d e.1.2 then
    Dict.set d e.1.2 (Dict.val d e.1.1 + k e.2) else d
  if 0 < flow f e.1.1 e.1.2 ∧ Dict.val d e.1.2 - k e.2 < Dict.val d e.1.1 then
    Dict.set d e.1.1 (Dict.val d e.1.2 - k e.2) else d

/-- Shorten distances, `n` rounds. -/
def rounds (g : Graph N A) (f : Flows N A) (k : Edge → ℤ) : ℕ → Dict (G N A) ℤ → Dict (G N A) ℤ
  | 0, d => d
  | n + 1, d => rounds g f k n (g.foldl (relax f k) d)

/-- An oracle with certificates. -/
def certified (oracle : Graph N A → Flows N A) (g : Graph N A) : Except PyErr (Flows N A) :=
  let f := oracle g
  if Checks g f ∧ Certificate g f (rounds g f (fun _ => 0) 12 [(.source, -1)])
    (rounds g f (fun e => e.weight.getD 0) 12 []) then .ok f else .error .valueError

theorem certified_sound (oracle : Graph N A → Flows N A) (g : Graph N A) (f : Flows N A)
    (h : certified oracle g = .ok f) : MinCostMaxFlow g f := by
  unfold certified at h
  simp only at h
  split_ifs at h with hc
  cases h
  exact certified_optimal (feasible_of_checks hc.1) hc.2

/-- An oracle with given certificates. -/
def certifiedBy (cuts pots : List (Dict (G N A) ℤ)) (oracle : Graph N A → Flows N A)
    (g : Graph N A) : Except PyErr (Flows N A) :=
  if Checks g (oracle g) ∧ ∃ c ∈ cuts, ∃ p ∈ pots, Certificate g (oracle g) c p
  then .ok (oracle g) else .error .valueError

theorem certifiedBy_sound {cuts pots : List (Dict (G N A) ℤ)} {oracle : Graph N A → Flows N A}
    {g : Graph N A} {f : Flows N A} (h : certifiedBy cuts pots oracle g = .ok f) :
    MinCostMaxFlow g f := by
  unfold certifiedBy at h
  split_ifs at h with hc
  cases h
  obtain ⟨hc, c, -, p, -, hp⟩ := hc
  exact certified_optimal (feasible_of_checks hc) hp

end Forecaster.Traversal
