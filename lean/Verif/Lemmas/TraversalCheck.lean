import Verif.Lemmas.Traversal
import Mathlib.Data.Rat.Floor
import Mathlib.Algebra.Order.Ring.Rat

/-!
# A flow algorithm for the concrete cases

networkx is a parameter of the model.  For concrete cases we need one whose answers are feasible
flows: any oracle at all, followed by a check.
-/

namespace Forecaster.Traversal

open Forecaster Forecaster.Timing

variable {N A : Type} [DecidableEq N] [DecidableEq A]

/-- Does this entry respect the attributes of its edge? -/
def withinEdge : Option Edge → ℤ → Bool
  | none, x => decide (x = 0)
  | some ⟨none, _⟩, _ => true
  | some ⟨some c, _⟩, x => decide (x ≤ c)

/-- Can this entry of a flow be right? -/
def EntryOk (g : Graph N A) (u : G N A) (x : G N A × ℤ) : Prop :=
  0 ≤ x.2 ∧ withinEdge (Dict.get? g (u, x.1)) x.2 = true

instance (g : Graph N A) (u : G N A) (x : G N A × ℤ) : Decidable (EntryOk g u x) :=
  inferInstanceAs (Decidable (_ ∧ _))

/-- A decidable form of `Feasible`. -/
def Checks (g : Graph N A) (f : Flows N A) : Prop :=
  (Dict.keys f).Nodup ∧ (∀ e ∈ f, (Dict.keys e.2).Nodup) ∧
  (∀ e ∈ f, ∀ x ∈ e.2, EntryOk g e.1 x) ∧
  (∀ k ∈ g, 0 ≤ k.2.capacity.getD 0) ∧
  ∀ v ∈ verts g, v ≠ .source → v ≠ .sink →
    ∑ u ∈ verts g, flow f u v = ∑ w ∈ verts g, flow f v w

instance (g : Graph N A) (f : Flows N A) : Decidable (Checks g f) :=
  inferInstanceAs (Decidable (_ ∧ _))

theorem flow_entry {f : Flows N A} {u v : G N A} (h : flow f u v ≠ 0) :
    ∃ d x, (u, d) ∈ f ∧ (v, x) ∈ d ∧ flow f u v = x := by
  unfold flow flowsTo at h ⊢
  cases hd : Dict.get? f u with
  | none => rw [hd] at h; exact absurd rfl h
  | some d =>
    rw [hd] at h
    simp only [Dict.val] at h ⊢
    cases hx : Dict.get? d v with
    | none => rw [hx] at h; exact absurd rfl h
    | some x => exact ⟨d, x, Dict.mem_of_get? hd, Dict.mem_of_get? hx, by simp⟩

theorem feasible_of_checks {g : Graph N A} {f : Flows N A} (h : Checks g f) : Feasible g f := by
  obtain ⟨h1, h2, h3, h4, h5⟩ := h
  have hedge : ∀ u v, Dict.get? g (u, v) = none → flow f u v = 0 := by
    intro u v huv
    by_contra hne
    obtain ⟨d, x, hd, hx, he⟩ := flow_entry hne
    have := (h3 _ hd _ hx).2
    simp only [huv, withinEdge, decide_eq_true_eq] at this
    exact hne (he.trans this)
  refine ⟨⟨h1, fun u d hd => h2 _ (Dict.mem_of_get? hd)⟩, ?_, ?_, hedge, ?_⟩
  · intro u v
    by_cases hne : flow f u v = 0
    · exact hne.ge
    · obtain ⟨d, x, hd, hx, he⟩ := flow_entry hne
      rw [he]; exact (h3 _ hd _ hx).1
  · intro u v e c he hc
    by_cases hne : flow f u v = 0
    · rw [hne]
      have := h4 _ (Dict.mem_of_get? he)
      simpa [hc] using this
    · obtain ⟨d, x, hd, hx, he'⟩ := flow_entry hne
      rw [he']
      have := (h3 _ hd _ hx).2
      obtain ⟨ec, ew⟩ := e
      simp only at hc
      subst hc
      simpa only [he, withinEdge, decide_eq_true_eq] using this
  · intro v hv hv'
    by_cases hm : v ∈ verts g
    · exact h5 v hm hv hv'
    · rw [Finset.sum_eq_zero, Finset.sum_eq_zero]
      · intro w _
        apply hedge
        cases hw : Dict.get? g (v, w) with
        | none => rfl
        | some e => exact absurd (mem_verts_left hw).1 hm
      · intro w _
        apply hedge
        cases hw : Dict.get? g (w, v) with
        | none => rfl
        | some e => exact absurd (mem_verts_left hw).2 hm

/-- Any oracle, with a check of its answer. -/
def checked (oracle : Graph N A → Flows N A) (g : Graph N A) : Except PyErr (Flows N A) :=
  if Checks g (oracle g) then .ok (oracle g) else .error .valueError

theorem checked_feasible (oracle : Graph N A → Flows N A) (g : Graph N A) (f : Flows N A)
    (h : checked oracle g = .ok f) : Feasible g f := by
  unfold checked at h
  split_ifs at h with hc
  cases h
  exact feasible_of_checks hc

/-- Push `x` units from `u` along the edges in the order of their weights. -/
def push (g : Graph N A) : ℕ → Dict (G N A × G N A) ℤ → G N A → ℤ → Dict (G N A × G N A) ℤ × ℤ
  | 0, st, _, _ => (st, 0)
  | fuel + 1, st, u, x =>
    if u = .sink then (st, x)
    else
      ((g.filter fun e => decide (e.1.1 = u)).insertionSort
          fun a b => a.2.weight.getD 0 ≤ b.2.weight.getD 0).foldl (fun acc e =>
        let used := Dict.val acc.1 e.1
        let want := match e.2.capacity with
          | none => x - acc.2
          | some c => min (x - acc.2) (c - used)
        let r := push g fuel acc.1 e.1.2 want
        (Dict.set r.1 e.1 (Dict.val r.1 e.1 + r.2), acc.2 + r.2)) (st, 0)

/-- A simple oracle. -/
def greedy (g : Graph N A) : Flows N A :=
  let st := (push g 30 [] .source 1000000).1
  let us := ((Dict.keys g).map Prod.fst ++ (Dict.keys g).map Prod.snd).dedup
  us.map fun u => (u, (g.filter fun e => decide (e.1.1 = u)).map fun e => (e.1.2, Dict.val st e.1))

end Forecaster.Traversal
