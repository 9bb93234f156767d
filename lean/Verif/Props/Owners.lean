import Verif.Model.Owners

/-!
# C84: owners and their accounts
-/

namespace Forecaster.Owners

open Forecaster

variable {N A : Type} [DecidableEq N] [DecidableEq A]

/-- Account `a` is in the set of its owner, and in no other. -/
def Mutual (s : St N A) (a : A) : Prop := ∀ i, a ∈ s.accounts i ↔ s.owner a = some i

/-- Account `a` names an owner but is in nobody's set. -/
def Lost (s : St N A) (a : A) : Prop := (∃ i, s.owner a = some i) ∧ ∀ i, a ∉ s.accounts i

theorem assign_nodup {s : St N A} (h : ∀ i, (s.accounts i).Nodup) (a : A) (v : Val N) :
    ∀ i, ((assign a v s).2.accounts i).Nodup := by
  have hl : ∀ s', leave a s = .ok s' → ∀ i, (s'.accounts i).Nodup := by
    intro s' h'
    simp only [leave] at h'
    cases ho : s.owner a with
    | none => rw [ho] at h'; cases h'; exact h
    | some i =>
      rw [ho] at h'
      simp only [remove] at h'
      split at h'
      · cases h'
        intro j
        simp only
        split
        · exact (h i).erase a
        · exact h j
      · cases h'
  simp only [assign]
  cases hs : leave a s with
  | error e => exact h
  | ok s' =>
    have h' := hl s' hs
    cases v with
    | none => exact h'
    | other => exact h'
    | person i =>
      intro j
      simp only [setOwner, add]
      split
      · split
        · exact h' i
        · rename_i hn
          exact List.nodup_append.2 ⟨h' i, by simp, by
            intro x hx y hy; rw [List.mem_singleton] at hy; subst hy; rintro rfl; exact hn hx⟩
      · exact h' j

/-- Assigning another account's owner changes nothing for this one. -/
theorem assign_other {a b : A} (hne : b ≠ a) (v : Val N) (s : St N A) :
    (assign b v s).2.owner a = s.owner a ∧ ∀ i, a ∈ (assign b v s).2.accounts i ↔ a ∈ s.accounts i := by
  have hl : ∀ s', leave b s = .ok s' → s'.owner a = s.owner a ∧
      ∀ i, a ∈ s'.accounts i ↔ a ∈ s.accounts i := by
    intro s' h'
    simp only [leave] at h'
    cases ho : s.owner b with
    | none => rw [ho] at h'; cases h'; exact ⟨rfl, fun _ => Iff.rfl⟩
    | some i =>
      rw [ho] at h'
      simp only [remove] at h'
      split at h'
      · cases h'
        refine ⟨rfl, fun j => ?_⟩
        simp only
        split
        · rename_i e; subst e; exact List.mem_erase_of_ne (Ne.symm hne)
        · exact Iff.rfl
      · cases h'
  simp only [assign]
  cases hs : leave b s with
  | error e => exact ⟨rfl, fun _ => Iff.rfl⟩
  | ok s' =>
    obtain ⟨h1, h2⟩ := hl s' hs
    cases v with
    | none => exact ⟨by simp [setOwner, Ne.symm hne, h1], h2⟩
    | other => exact ⟨h1, h2⟩
    | person i =>
      refine ⟨by simp [setOwner, add, Ne.symm hne, h1], fun j => ?_⟩
      simp only [setOwner, add]
      split
      · rename_i e
        subst e
        split
        · exact h2 _
        · simp [Ne.symm hne, h2]
      · exact h2 j

theorem leave_mutual {s : St N A} (hn : ∀ i, (s.accounts i).Nodup) {a : A} (h : Mutual s a) :
    ∃ s', leave a s = .ok s' ∧ s'.owner = s.owner ∧ ∀ i, a ∉ s'.accounts i := by
  cases ho : s.owner a with
  | none =>
    refine ⟨s, by simp only [leave, ho], rfl, fun i hm => ?_⟩
    rw [(h i).1 hm] at ho; cases ho
  | some i =>
    have hm := (h i).2 ho
    refine ⟨{ s with accounts := fun j => if j = i then (s.accounts i).erase a else s.accounts j },
      by simp only [leave, ho, remove, if_pos hm], rfl, fun j hj => ?_⟩
    simp only at hj
    split at hj
    · exact (hn i).not_mem_erase hj
    · rename_i hji
      have := (h j).1 hj
      rw [ho] at this
      exact hji (Option.some.inj this).symm

/-- One assignment to an account that is where it should be. -/
theorem assign_mutual {s : St N A} (hn : ∀ i, (s.accounts i).Nodup) {a : A} (h : Mutual s a)
    (v : Val N) :
    (∀ i, v = .person i → (assign a v s).1 = none ∧ Mutual (assign a v s).2 a ∧
      (assign a v s).2.owner a = some i) ∧
    (v = .none → (assign a v s).1 = none ∧ Mutual (assign a v s).2 a ∧
      (assign a v s).2.owner a = none) ∧
    (v = .other → (assign a v s).1 = some .typeError ∧ (assign a v s).2.owner a = s.owner a ∧
      ∀ i, a ∉ (assign a v s).2.accounts i) := by
  obtain ⟨s', h1, h2, h3⟩ := leave_mutual hn h
  refine ⟨?_, ?_, ?_⟩
  · rintro i rfl
    simp only [assign, h1]
    refine ⟨trivial, fun j => ?_, by simp [setOwner]⟩
    simp only [setOwner, add, if_true]
    split
    · rename_i e
      subst e
      simp [h3 _]
    · rename_i hj
      constructor
      · intro hm; exact absurd hm (h3 j)
      · intro hm; exact absurd (Option.some.inj hm).symm hj
  · rintro rfl
    simp only [assign, h1]
    refine ⟨trivial, fun j => ?_, by simp [setOwner]⟩
    simp [setOwner, h3 j]
  · rintro rfl
    simp only [assign, h1]
    exact ⟨trivial, by rw [h2], h3⟩

/-- **C84** (owners and accounts agree). After any assignments of owners (some of which may have
raised): an account that was never assigned something that is not a person is in the set of accounts
of its owner, and of nobody else. -/
theorem C84_mutual (ops : List (A × Val N)) (a : A) (hok : ∀ op ∈ ops, op.1 = a → op.2 ≠ .other) :
    let s := run (empty : St N A) ops
    (∀ i, a ∈ s.accounts i ↔ s.owner a = some i) ∧ ∀ i, (s.accounts i).Nodup := by
  suffices H : ∀ (ops : List (A × Val N)) (s : St N A), (∀ i, (s.accounts i).Nodup) → Mutual s a →
      (∀ op ∈ ops, op.1 = a → op.2 ≠ .other) →
      Mutual (run s ops) a ∧ ∀ i, ((run s ops).accounts i).Nodup from
    H ops empty (by simp [empty]) (by simp [Mutual, empty]) hok
  intro ops
  induction ops with
  | nil => intro s h1 h2 _; exact ⟨h2, h1⟩
  | cons op ops ih =>
    intro s h1 h2 h3
    refine ih _ (assign_nodup h1 op.1 op.2) ?_ fun o ho => h3 o (List.mem_cons_of_mem _ ho)
    obtain ⟨b, v⟩ := op
    by_cases hb : b = a
    · subst hb
      obtain ⟨k1, k2, k3⟩ := assign_mutual h1 h2 v
      cases v with
      | none => exact (k2 rfl).2.1
      | person i => exact (k1 i rfl).2.1
      | other => exact absurd rfl (h3 _ List.mem_cons_self rfl)
    · obtain ⟨k1, k2⟩ := assign_other hb v s
      intro i
      rw [k2, h2 i, k1]

/-- **C84** (one owner at a time). Hence no such account is counted for two people. -/
theorem C84_one_owner (ops : List (A × Val N)) (a : A)
    (hok : ∀ op ∈ ops, op.1 = a → op.2 ≠ .other) (i j : N)
    (hi : a ∈ (run (empty : St N A) ops).accounts i)
    (hj : a ∈ (run (empty : St N A) ops).accounts j) : i = j := by
  obtain ⟨h, -⟩ := C84_mutual ops a hok
  have h1 := (h i).1 hi
  have h2 := (h j).1 hj
  rw [h1] at h2
  exact Option.some.inj h2

/-- **C84** (what an assignment does). Assigning a person or `None` to such an account succeeds, is
read back, and changes no other account's owner nor anybody's other accounts. -/
theorem C84_assignment (ops : List (A × Val N)) (a : A)
    (hok : ∀ op ∈ ops, op.1 = a → op.2 ≠ .other) (v : Option N) :
    let s := run (empty : St N A) ops
    let r := assign a (match v with | some i => .person i | none => .none) s
    r.1 = none ∧ r.2.owner a = v ∧
    ∀ b, b ≠ a → r.2.owner b = s.owner b ∧ ∀ i, b ∈ r.2.accounts i ↔ b ∈ s.accounts i := by
  intro s r
  obtain ⟨h, hn⟩ := C84_mutual ops a hok
  have k := assign_mutual (s := s) hn h
  refine ⟨?_, ?_, fun b hb => assign_other (Ne.symm hb) _ s⟩
  · cases v with
    | none => exact ((k _).2.1 rfl).1
    | some i => exact ((k _).1 i rfl).1
  · cases v with
    | none => exact ((k _).2.1 rfl).2.2
    | some i => exact ((k _).1 i rfl).2.2

theorem assign_lost {s : St N A} {a : A} (h : Lost s a) (v : Val N) :
    assign a v s = (some .keyError, s) := by
  obtain ⟨⟨i, hi⟩, hm⟩ := h
  simp only [assign, leave, hi, remove, if_neg (hm i)]

/-- **C84** (refuted: "a rejected assignment changes nothing"). Assigning something that is not a
person to an account that has an owner raises TypeError, but takes the account out of its owner's
accounts while it goes on naming the owner; and from then on every assignment to it raises KeyError
and changes nothing, for good. -/
theorem C84_rejected_assignment (ops later : List (A × Val N)) (a : A) (i : N)
    (hok : ∀ op ∈ ops, op.1 = a → op.2 ≠ .other)
    (hi : (run (empty : St N A) ops).owner a = some i) (v : Val N) :
    let r := assign a .other (run (empty : St N A) ops)
    let s := run r.2 later
    r.1 = some .typeError ∧ s.owner a = some i ∧ (∀ j, a ∉ s.accounts j) ∧
    assign a v s = (some .keyError, s) := by
  intro r
  obtain ⟨h, hn⟩ := C84_mutual ops a hok
  obtain ⟨k1, k2, k3⟩ := (assign_mutual hn h .other).2.2 rfl
  suffices H : ∀ (later : List (A × Val N)) (s : St N A), s.owner a = some i → (∀ j, a ∉ s.accounts j) →
      (run s later).owner a = some i ∧ ∀ j, a ∉ (run s later).accounts j by
    obtain ⟨h1, h2⟩ := H later r.2 (k2.trans hi) k3
    exact ⟨k1, h1, h2, assign_lost ⟨⟨i, h1⟩, h2⟩ v⟩
  intro later
  induction later with
  | nil => intro s h1 h2; exact ⟨h1, h2⟩
  | cons op later ih =>
    intro s h1 h2
    refine ih _ ?_ ?_
    all_goals
      obtain ⟨b, v⟩ := op
      by_cases hb : b = a
      · subst hb
        simp only [assign_lost ⟨⟨i, h1⟩, h2⟩ v]
        assumption
      · obtain ⟨m1, m2⟩ := assign_other hb v s
        first
          | exact m1.trans h1
          | (intro j hj; exact h2 j ((m2 j).1 hj))

/-- Two people (`false`, `true`) and accounts that change hands. -/
example : let ops : List (ℕ × Val Bool) := [(1, .person false), (2, .person false), (3, .person true),
      (1, .person true), (2, .none), (4, .other), (3, .person true)]
    (∀ a ∈ [1, 2, 3], ∀ op ∈ ops, op.1 = a → op.2 ≠ .other) ∧
    (run (empty : St Bool ℕ) ops).accounts true = [1, 3] ∧
    (run (empty : St Bool ℕ) ops).accounts false = [] ∧
    (run (empty : St Bool ℕ) ops).owner 1 = some true ∧
    (assign 1 .other (run (empty : St Bool ℕ) ops)).2.accounts true = [3] ∧
    (assign 1 .other (run (empty : St Bool ℕ) ops)).2.owner 1 = some true := by
  refine ⟨?_, by decide, by decide, by decide, by decide, by decide⟩
  intro a ha op hop
  simp only [List.mem_cons, List.not_mem_nil, or_false] at ha hop
  rcases ha with rfl | rfl | rfl <;> rcases hop with rfl | rfl | rfl | rfl | rfl | rfl | rfl <;> simp

end Forecaster.Owners
