import Verif.Model.Copying
import Verif.Lemmas.Dict
import Mathlib.Data.Finset.Card
import Mathlib.Data.Finset.Range
import Mathlib.Data.List.Forall2
import Mathlib.Algebra.Order.BigOperators.Group.Finset
import Mathlib.Tactic.Ring

/-!
# C80: `run_forecast` works on copies

Specification vocabulary: `Holds h i k` says that object `i` (not a function) holds a reference
to object `k`; `Reach h roots i` that one gets from some of the `roots` to object `i`; `Kept h i`
that `i` is a function or a tuple of nothing but atoms and such; `Copied h roots h' roots'` that
in heap `h'` the `roots'` are a faithful copy of `roots` in `h`.
-/

set_option linter.unusedSectionVars false

namespace Forecaster.Copying

open Forecaster

/-- Specification: functions (which are not copied). -/
def Shape.function : Shape → Bool
  | .pure | .closure => true
  | _ => false

/-- Specification: object `i`, not a function, holds a reference to object `k`. -/
def Holds (h : List Obj) (i k : ℕ) : Prop :=
  ∃ o, h[i]? = some o ∧ o.shape.function = false ∧ Val.ref k ∈ o.items

/-- Specification: the objects one can get to. -/
inductive Reach (h : List Obj) (roots : List Val) : ℕ → Prop
  | root {i : ℕ} : Val.ref i ∈ roots → Reach h roots i
  | step {i k : ℕ} : Reach h roots i → Holds h i k → Reach h roots k

/-- Specification: what needs no copy: functions, and tuples of atoms and such. -/
inductive Kept (h : List Obj) : ℕ → Prop
  | func {i : ℕ} {o : Obj} : h[i]? = some o → o.shape.function = true → Kept h i
  | tuple {i : ℕ} {o : Obj} : h[i]? = some o → o.shape = .tuple →
      (∀ k, Val.ref k ∈ o.items → Kept h k) → Kept h i

/-- Specification: renaming references. -/
def Val.rename (φ : ℕ → ℕ) : Val → Val
  | .atom n => .atom n
  | .ref i => .ref (φ i)

/-- Specification: `roots'` in `h'` are a copy of `roots` in `h`: nothing in `h` has changed, and
there is a renaming `φ` of the objects, no two to the same, such that every object that is not
`Kept` has a new object of the same kind with the renamed contents. -/
def Copied (h : List Obj) (roots : List Val) (h' : List Obj) (roots' : List Val) : Prop :=
  h <+: h' ∧ ∃ φ : ℕ → ℕ, roots' = roots.map (Val.rename φ) ∧
    (∀ i k, Reach h roots i → Reach h roots k → φ i = φ k → i = k) ∧
    (∀ i, Reach h roots i → Kept h i → φ i = i) ∧
    ∀ i, Reach h roots i → ¬ Kept h i → h.length ≤ φ i ∧
      ∃ o, h[i]? = some o ∧
        h'[φ i]? = some { o with items := o.items.map (Val.rename φ) }

/-- Specification: what Python guarantees, and what is asked of the arguments: references lead
somewhere; a set inside the data belongs to one instance (as `person.accounts`, or the group of a
link), and a set given as an argument belongs to nothing, or to something in an earlier
argument. -/
structure Proper (h : List Obj) (roots : List Val) : Prop where
  closed : ∀ i, Reach h roots i → i < h.length
  owned : ∀ b ob, h[b]? = some ob → ob.shape = .set → ∀ i, Reach h roots i → Holds h i b →
    (∃ o, h[i]? = some o ∧ o.shape = .inst) ∧ ∀ k, Reach h roots k → Holds h k b → k = i
  entry : ∀ pre b post, roots = pre ++ Val.ref b :: post → ∀ ob, h[b]? = some ob →
    ob.shape = .set → (∀ i, Reach h roots i → ¬ Holds h i b) ∨ Reach h pre b

/-! ### The invariant of copying -/

/-- The copy of a value. -/
def Rel (h : List Obj) (m : Dict ℕ ℕ) : Val → Val → Prop
  | .atom n, v' => v' = .atom n
  | .ref i, v' => (Kept h i ∧ v' = .ref i) ∨ ∃ j, Dict.get? m i = some j ∧ v' = .ref j

/-- The memo leads from originals to copies. -/
structure Inv (h : List Obj) (s : St) : Prop where
  orig : ∀ i < h.length, s.heap[i]? = h[i]?
  len : h.length ≤ s.heap.length
  range : ∀ i j, Dict.get? s.memo i = some j →
    i < h.length ∧ h.length ≤ j ∧ j < s.heap.length ∧ ¬ Kept h i
  inj : ∀ i i' j, Dict.get? s.memo i = some j → Dict.get? s.memo i' = some j → i = i'

/-- Object `j` is a finished copy of object `i`. -/
def Done (h : List Obj) (s : St) (i j : ℕ) : Prop :=
  ∃ o vs, h[i]? = some o ∧ s.heap[j]? = some { o with items := vs } ∧
    List.Forall₂ (Rel h s.memo) o.items vs

/-- What copying does to the state. -/
structure Step (h : List Obj) (s s' : St) : Prop where
  inv : Inv h s'
  grow : s.heap.length ≤ s'.heap.length
  same : ∀ j < s.heap.length, s'.heap[j]? = s.heap[j]?
  memo : ∀ i j, Dict.get? s.memo i = some j → Dict.get? s'.memo i = some j
  fresh : ∀ i j, Dict.get? s.memo i = none → Dict.get? s'.memo i = some j → Done h s' i j

variable {h : List Obj} {R : ℕ → Prop}

theorem Rel.mono {m m' : Dict ℕ ℕ} (hm : ∀ i j, Dict.get? m i = some j → Dict.get? m' i = some j)
    {v v' : Val} (hr : Rel h m v v') : Rel h m' v v' := by
  cases v with
  | atom n => exact hr
  | ref i =>
    rcases hr with hr | ⟨j, h1, h2⟩
    · exact .inl hr
    · exact .inr ⟨j, hm _ _ h1, h2⟩

theorem Done.mono {s s' : St} (hs : Step h s s') {i j : ℕ} (hj : j < s.heap.length)
    (hd : Done h s i j) : Done h s' i j := by
  obtain ⟨o, vs, h1, h2, h3⟩ := hd
  exact ⟨o, vs, h1, by rw [hs.same j hj]; exact h2, h3.imp fun _ _ hr => hr.mono hs.memo⟩

theorem Step.refl {s : St} (hi : Inv h s) : Step h s s :=
  ⟨hi, le_refl _, fun _ _ => rfl, fun _ _ hm => hm, fun i j h1 h2 => by rw [h1] at h2; cases h2⟩

theorem Step.trans {s s' s'' : St} (h1 : Step h s s') (h2 : Step h s' s'') : Step h s s'' where
  inv := h2.inv
  grow := h1.grow.trans h2.grow
  same j hj := (h2.same j (lt_of_lt_of_le hj h1.grow)).trans (h1.same j hj)
  memo i j hm := h2.memo i j (h1.memo i j hm)
  fresh i j hn hm := by
    cases hb : Dict.get? s'.memo i with
    | none => exact h2.fresh i j hb hm
    | some j' =>
      have := h2.memo i j' hb
      rw [hm] at this
      cases this
      exact (h1.fresh i j hn hb).mono h2 (h1.inv.range i j hb).2.2.1

/-- A set that is being copied: nothing can get to it any more. -/
def Busy (h : List Obj) (R : ℕ → Prop) (s : St) (b : ℕ) : Prop :=
  Dict.get? s.memo b = none ∧ ∀ i, R i → Holds h i b → Dict.get? s.memo i ≠ none

/-- A set may be copied now. -/
def Enter (h : List Obj) (R : ℕ → Prop) (s : St) (v : Val) : Prop :=
  ∀ b ob, v = .ref b → Dict.get? s.memo b = none → h[b]? = some ob → ob.shape = .set →
    ∀ i, R i → Holds h i b → Dict.get? s.memo i ≠ none

theorem Step.stays {s s' : St} (hs : Step h s s') {i : ℕ} (hm : Dict.get? s.memo i ≠ none) :
    Dict.get? s'.memo i ≠ none := by
  cases hb : Dict.get? s.memo i with
  | none => exact absurd hb hm
  | some j => rw [hs.memo i j hb]; simp

theorem Enter.mono {s s' : St} (hs : Step h s s') {v : Val} (he : Enter h R s v) :
    Enter h R s' v := by
  intro b ob hv hn hb hset i hR hh
  refine hs.stays (he b ob hv ?_ hb hset i hR hh)
  cases hm : Dict.get? s.memo b with
  | none => rfl
  | some j => rw [hs.memo b j hm] at hn; cases hn

/-- The part of `Proper` that copying needs, for a set `R` of objects. -/
structure Sane (h : List Obj) (R : ℕ → Prop) : Prop where
  step : ∀ i k, R i → Holds h i k → R k
  closed : ∀ i, R i → i < h.length
  owned : ∀ b ob, h[b]? = some ob → ob.shape = .set → ∀ i, R i → Holds h i b →
    (∃ o, h[i]? = some o ∧ o.shape = .inst) ∧ ∀ k, R k → Holds h k b → k = i

/-- What a copying function does. -/
def Works (h : List Obj) (R : ℕ → Prop) (f : Val → St → Except PyErr (Val × St)) : Prop :=
  ∀ v s v' s', Inv h s → Enter h R s v → (∀ k, v = .ref k → R k) → f v s = .ok (v', s') →
    Step h s s' ∧ Rel h s'.memo v v' ∧
    ∀ b, Busy h R s b → v ≠ .ref b → Dict.get? s'.memo b = none

theorem copyList_works {f : Val → St → Except PyErr (Val × St)} (hf : Works h R f) :
    ∀ vs s vs' s', Inv h s → (∀ v ∈ vs, Enter h R s v) → (∀ k, Val.ref k ∈ vs → R k) →
      copyList f vs s = .ok (vs', s') →
      Step h s s' ∧ List.Forall₂ (Rel h s'.memo) vs vs' ∧
      ∀ b, Busy h R s b → Val.ref b ∉ vs → Dict.get? s'.memo b = none := by
  intro vs
  induction vs with
  | nil =>
    intro s vs' s' hi _ _ hc
    simp only [copyList, Except.ok.injEq, Prod.mk.injEq] at hc
    obtain ⟨rfl, rfl⟩ := hc
    exact ⟨Step.refl hi, .nil, fun b hb _ => hb.1⟩
  | cons v vs ih =>
    intro s vs' s' hi he hR hc
    simp only [copyList] at hc
    cases h1 : f v s with
    | error e => rw [h1] at hc; simp at hc
    | ok r =>
      obtain ⟨v1, s1⟩ := r
      rw [h1, ok_bind] at hc
      simp only at hc
      cases h2 : copyList f vs s1 with
      | error e => rw [h2] at hc; simp at hc
      | ok q =>
        obtain ⟨vs2, s2⟩ := q
        rw [h2, ok_bind] at hc
        simp only [Except.ok.injEq, Prod.mk.injEq] at hc
        obtain ⟨rfl, rfl⟩ := hc
        obtain ⟨a1, a2, a3⟩ := hf v s v1 s1 hi (he v (by simp))
          (fun k hk => hR k (by simp [hk])) h1
        obtain ⟨b1, b2, b3⟩ := ih s1 vs2 s2 a1.inv
          (fun w hw => (he w (by simp [hw])).mono a1) (fun k hk => hR k (by simp [hk])) h2
        refine ⟨a1.trans b1, .cons (a2.mono b1.memo) b2, ?_⟩
        intro b hb hn
        rw [List.mem_cons, not_or] at hn
        refine b3 b ⟨a3 b hb fun e => hn.1 e.symm, fun i hi hh => a1.stays (hb.2 i hi hh)⟩ hn.2

theorem kept_shape {i : ℕ} {o : Obj} (ho : h[i]? = some o) (hk : Kept h i) :
    o.shape.function = true ∨ (o.shape = .tuple ∧ ∀ k, Val.ref k ∈ o.items → Kept h k) := by
  cases hk with
  | func h1 h2 => rw [ho] at h1; cases h1; exact .inl h2
  | tuple h1 h2 h3 => rw [ho] at h1; cases h1; exact .inr ⟨h2, h3⟩

/-- Making a copy of an object with finished contents. -/
theorem step_push {s : St} (hi : Inv h s) {i : ℕ} {o : Obj} {vs : List Val} (ho : h[i]? = some o)
    (hk : ¬ Kept h i) (hn : Dict.get? s.memo i = none)
    (hr : List.Forall₂ (Rel h s.memo) o.items vs) :
    Step h s (push s i { o with items := vs }) ∧
      Dict.get? (push s i { o with items := vs }).memo i = some s.heap.length := by
  have hil : i < h.length := (List.getElem?_eq_some_iff.1 ho).1
  have hm : ∀ i' j, Dict.get? s.memo i' = some j →
      Dict.get? (push s i { o with items := vs }).memo i' = some j := by
    intro i' j hj
    simp only [push]
    rw [Dict.get?_set_ne]
    · exact hj
    · rintro rfl; rw [hn] at hj; cases hj
  refine ⟨⟨⟨?_, ?_, ?_, ?_⟩, ?_, ?_, hm, ?_⟩, by simp [push]⟩
  · intro k hk
    simp only [push]
    rw [List.getElem?_append_left (lt_of_lt_of_le hk hi.len)]
    exact hi.orig k hk
  · simp only [push, List.length_append]; have := hi.len; omega
  · intro i' j hj
    simp only [push, List.length_append, List.length_singleton] at hj ⊢
    rw [Dict.get?_set] at hj
    split_ifs at hj with e
    · cases hj; subst e; exact ⟨hil, hi.len, by omega, hk⟩
    · obtain ⟨a, b, c, d⟩ := hi.range i' j hj
      exact ⟨a, b, by omega, d⟩
  · intro i1 i2 j h1 h2
    simp only [push] at h1 h2
    rw [Dict.get?_set] at h1 h2
    split_ifs at h1 h2 with e1 e2 e2
    · exact e1.symm.trans e2
    · cases h1; have := (hi.range _ _ h2).2.2.1; omega
    · cases h2; have := (hi.range _ _ h1).2.2.1; omega
    · exact hi.inj _ _ _ h1 h2
  · simp [push]
  · intro j hj
    simp only [push]
    rw [List.getElem?_append_left hj]
  · intro i' j h1 h2
    simp only [push] at h2
    rw [Dict.get?_set] at h2
    split_ifs at h2 with e
    · cases h2; subst e
      exact ⟨o, vs, ho, by simp [push], hr.imp fun _ _ q => q.mono hm⟩
    · rw [h1] at h2; cases h2

theorem obj_works (hS : Sane h R) {f : Val → St → Except PyErr (Val × St)} (hf : Works h R f)
    {i : ℕ} {o : Obj} (ho : h[i]? = some o) (hRi : R i) {s s' : St} {v' : Val} (hi : Inv h s)
    (hn : Dict.get? s.memo i = none) (he : Enter h R s (.ref i))
    (hc : copyObj f i o s = .ok (v', s')) :
    Step h s s' ∧ Rel h s'.memo (.ref i) v' ∧
      ∀ b, Busy h R s b → Val.ref i ≠ .ref b → Dict.get? s'.memo b = none := by
  have hil : i < h.length := hS.closed i hRi
  -- nothing that is busy is held by an object that has not been copied
  have hbusy : o.shape.function = false → ∀ b, Busy h R s b → Val.ref b ∉ o.items := by
    intro hfun b hb hm
    exact hb.2 i hRi ⟨o, ho, hfun, hm⟩ hn
  have hRitems : o.shape.function = false → ∀ k, Val.ref k ∈ o.items → R k := by
    intro hfun k hk
    exact hS.step i k hRi ⟨o, ho, hfun, hk⟩
  have hset : o.shape.function = false → o.shape ≠ .inst → ∀ s0, ∀ v ∈ o.items, Enter h R s0 v := by
    intro hfun hne s0 v hv b ob e _ hob hsh
    subst e
    obtain ⟨⟨o', h1, h2⟩, -⟩ := hS.owned b ob hob hsh i hRi ⟨o, ho, hfun, hv⟩
    rw [ho] at h1; cases h1
    exact absurd h2 hne
  unfold copyObj at hc
  cases hsh : o.shape with
  | pure =>
    rw [hsh] at hc
    simp only [Except.ok.injEq, Prod.mk.injEq] at hc
    obtain ⟨rfl, rfl⟩ := hc
    exact ⟨Step.refl hi, .inl ⟨.func ho (by rw [hsh]; rfl), rfl⟩, fun b hb _ => hb.1⟩
  | closure =>
    rw [hsh] at hc
    simp only [Except.ok.injEq, Prod.mk.injEq] at hc
    obtain ⟨rfl, rfl⟩ := hc
    exact ⟨Step.refl hi, .inl ⟨.func ho (by rw [hsh]; rfl), rfl⟩, fun b hb _ => hb.1⟩
  | inst =>
    rw [hsh] at hc
    have hfun : o.shape.function = false := by rw [hsh]; rfl
    have hk : ¬ Kept h i := by
      intro hk
      rcases kept_shape ho hk with h1 | ⟨h1, -⟩
      · rw [hfun] at h1; cases h1
      · rw [hsh] at h1; cases h1
    simp only at hc
    generalize hs1 : push s i { shape := Shape.inst, label := o.label, items := [] } = s1 at hc
    have hm1 : ∀ i', Dict.get? s1.memo i' = if i = i' then some s.heap.length
        else Dict.get? s.memo i' := by
      intro i'; rw [← hs1]; simp only [push]; rw [Dict.get?_set]
    have hl1 : s1.heap.length = s.heap.length + 1 := by rw [← hs1]; simp [push]
    have hi1 : Inv h s1 := by
      refine ⟨?_, ?_, ?_, ?_⟩
      · intro k hk
        rw [← hs1]; simp only [push]
        rw [List.getElem?_append_left (lt_of_lt_of_le hk hi.len)]
        exact hi.orig k hk
      · have := hi.len; omega
      · intro i' j hj
        rw [hm1] at hj
        split_ifs at hj with e
        · cases hj; subst e; exact ⟨hil, hi.len, by omega, hk⟩
        · obtain ⟨a, b, c, d⟩ := hi.range i' j hj
          exact ⟨a, b, by omega, d⟩
      · intro i1 i2 j h1 h2
        rw [hm1] at h1 h2
        split_ifs at h1 h2 with e1 e2 e2
        · exact e1.symm.trans e2
        · cases h1; have := (hi.range _ _ h2).2.2.1; omega
        · cases h2; have := (hi.range _ _ h1).2.2.1; omega
        · exact hi.inj _ _ _ h1 h2
    cases hq : copyList f o.items s1 with
    | error e => rw [hq] at hc; simp [Except.map] at hc
    | ok q =>
      obtain ⟨vs, s2⟩ := q
      rw [hq] at hc
      simp only [Except.map, fill, Except.ok.injEq, Prod.mk.injEq] at hc
      obtain ⟨rfl, rfl⟩ := hc
      have hent : ∀ v ∈ o.items, Enter h R s1 v := by
        intro v hv b ob e _ hob hsh' k hRk hh
        subst e
        obtain ⟨-, hu⟩ := hS.owned b ob hob hsh' i hRi ⟨o, ho, hfun, hv⟩
        rw [hu k hRk hh, hm1, if_pos rfl]
        simp
      obtain ⟨a1, a2, a3⟩ := copyList_works hf o.items s1 vs s2 hi1 hent (hRitems hfun) hq
      have hmi : Dict.get? s2.memo i = some s.heap.length := a1.memo i _ (by rw [hm1, if_pos rfl])
      have hg := a1.grow
      have hsm : ∀ i' j, Dict.get? s.memo i' = some j → Dict.get? s2.memo i' = some j := by
        intro i' j hj
        refine a1.memo i' j ?_
        rw [hm1, if_neg]
        · exact hj
        · rintro rfl; rw [hn] at hj; cases hj
      refine ⟨⟨⟨?_, ?_, ?_, a1.inv.inj⟩, ?_, ?_, hsm, ?_⟩, .inr ⟨_, hmi, rfl⟩, ?_⟩
      · intro k hk
        simp only
        rw [List.getElem?_set_ne (by have := hi.len; omega)]
        exact a1.inv.orig k hk
      · simp only [List.length_set]; exact a1.inv.len
      · intro i' j hj
        simp only [List.length_set]
        exact a1.inv.range i' j hj
      · simp only [List.length_set]; omega
      · intro j hj
        simp only
        rw [List.getElem?_set_ne (by omega), a1.same j (by omega), ← hs1]
        simp only [push]
        rw [List.getElem?_append_left hj]
      · intro i' j h1 h2
        by_cases e : i = i'
        · subst e
          simp only at h2
          rw [hmi] at h2
          cases h2
          refine ⟨o, vs, ho, ?_, a2⟩
          simp only
          rw [List.getElem?_set_self (by omega)]
        · obtain ⟨o', vs', b1, b2, b3⟩ := a1.fresh i' j (by rw [hm1, if_neg e]; exact h1) h2
          refine ⟨o', vs', b1, ?_, b3⟩
          simp only
          rw [List.getElem?_set_ne]
          · exact b2
          · intro ej
            exact e (a1.inv.inj i i' j (by rw [hmi, ej]) h2)
      · intro b hb hne
        refine a3 b ⟨?_, ?_⟩ (hbusy hfun b hb)
        · rw [hm1, if_neg (fun e => hne (by rw [e]))]; exact hb.1
        · intro k hRk hh
          rw [hm1]
          split_ifs
          · simp
          · exact hb.2 k hRk hh
  | set =>
    rw [hsh] at hc
    have hfun : o.shape.function = false := by rw [hsh]; rfl
    have hk : ¬ Kept h i := by
      intro hk
      rcases kept_shape ho hk with h1 | ⟨h1, -⟩
      · rw [hfun] at h1; cases h1
      · rw [hsh] at h1; cases h1
    simp only at hc
    cases hq : copyList f o.items s with
    | error e => rw [hq] at hc; simp [Except.map] at hc
    | ok q =>
      obtain ⟨vs, s2⟩ := q
      rw [hq] at hc
      simp only [Except.map, build, Except.ok.injEq, Prod.mk.injEq] at hc
      obtain ⟨rfl, rfl⟩ := hc
      obtain ⟨a1, a2, a3⟩ := copyList_works hf o.items s vs s2 hi
        (hset hfun (by rw [hsh]; decide) s) (hRitems hfun) hq
      have hbi : Busy h R s i := ⟨hn, he i o rfl hn ho hsh⟩
      have hn2 := a3 i hbi (hbusy hfun i hbi)
      obtain ⟨p1, p2⟩ := step_push a1.inv ho hk hn2 a2
      refine ⟨a1.trans p1, .inr ⟨_, p2, rfl⟩, ?_⟩
      intro b hb hne
      simp only [push]
      rw [Dict.get?_set, if_neg (fun e => hne (by rw [e]))]
      exact a3 b hb (hbusy hfun b hb)
  | tuple =>
    rw [hsh] at hc
    have hfun : o.shape.function = false := by rw [hsh]; rfl
    simp only at hc
    cases hq : copyList f o.items s with
    | error e => rw [hq] at hc; simp [Except.map] at hc
    | ok q =>
      obtain ⟨vs, s2⟩ := q
      rw [hq] at hc
      simp only [Except.map, Except.ok.injEq] at hc
      obtain ⟨a1, a2, a3⟩ := copyList_works hf o.items s vs s2 hi
        (hset hfun (by rw [hsh]; decide) s) (hRitems hfun) hq
      unfold buildTuple at hc
      simp only at hc
      cases hm : Dict.get? s2.memo i with
      | some j =>
        rw [hm] at hc
        simp only [Prod.mk.injEq] at hc
        obtain ⟨rfl, rfl⟩ := hc
        exact ⟨a1, .inr ⟨j, hm, rfl⟩, fun b hb hne => a3 b hb (hbusy hfun b hb)⟩
      | none =>
        rw [hm] at hc
        simp only at hc
        split_ifs at hc with e
        · simp only [Prod.mk.injEq] at hc
          obtain ⟨rfl, rfl⟩ := hc
          refine ⟨a1, .inl ⟨.tuple ho hsh fun k hkm => ?_, rfl⟩,
            fun b hb hne => a3 b hb (hbusy hfun b hb)⟩
          rw [e] at a2
          have : Rel h s2.memo (.ref k) (.ref k) := by
            clear hq hsh ho hRitems hset hbusy e
            generalize o.items = l at a2 hkm
            induction l with
            | nil => cases hkm
            | cons x l ih =>
              cases a2 with
              | cons y1 y2 =>
                rcases List.mem_cons.1 hkm with rfl | hkm
                · exact y1
                · exact ih y2 hkm
          rcases this with ⟨h1, -⟩ | ⟨j, h1, h2⟩
          · exact h1
          · cases h2
            have := a1.inv.range k k h1
            omega
        · simp only [build, Prod.mk.injEq] at hc
          obtain ⟨rfl, rfl⟩ := hc
          have hk : ¬ Kept h i := by
            intro hk
            rcases kept_shape ho hk with h1 | ⟨-, h1⟩
            · rw [hfun] at h1; cases h1
            · apply e
              clear hq hsh ho hRitems hset hbusy e
              generalize o.items = l at a2 h1
              induction a2 with
              | nil => rfl
              | @cons x y l l' r _ ih =>
                rw [ih fun k hk => h1 k (by simp [hk])]
                congr 1
                cases x with
                | atom n => exact r
                | ref k =>
                  rcases r with ⟨-, r⟩ | ⟨j, r, -⟩
                  · exact r
                  · exact absurd (h1 k (by simp)) (a1.inv.range k j r).2.2.2
          obtain ⟨p1, p2⟩ := step_push a1.inv ho hk hm a2
          refine ⟨a1.trans p1, .inr ⟨_, p2, rfl⟩, ?_⟩
          intro b hb hne
          simp only [push]
          rw [Dict.get?_set, if_neg (fun e => hne (by rw [e]))]
          exact a3 b hb (hbusy hfun b hb)

theorem copy_works (hS : Sane h R) (fuel : ℕ) : Works h R (copy fuel) := by
  induction fuel with
  | zero => intro v s v' s' _ _ _ hc; simp [copy] at hc
  | succ fuel ih =>
    intro v s v' s' hi he hR hc
    cases v with
    | atom n =>
      simp only [copy, Except.ok.injEq, Prod.mk.injEq] at hc
      obtain ⟨rfl, rfl⟩ := hc
      exact ⟨Step.refl hi, rfl, fun b hb _ => hb.1⟩
    | ref i =>
      simp only [copy] at hc
      have hil := hS.closed i (hR i rfl)
      cases hm : Dict.get? s.memo i with
      | some j =>
        rw [hm] at hc
        simp only [Except.ok.injEq, Prod.mk.injEq] at hc
        obtain ⟨rfl, rfl⟩ := hc
        exact ⟨Step.refl hi, .inr ⟨j, hm, rfl⟩, fun b hb _ => hb.1⟩
      | none =>
        rw [hm] at hc
        simp only at hc
        rw [hi.orig i hil, List.getElem?_eq_getElem hil] at hc
        simp only at hc
        exact obj_works hS ih (List.getElem?_eq_getElem hil) (hR i rfl) hi hm he hc

/-! ### The copies -/

/-- All copies are finished. -/
def AllDone (h : List Obj) (s : St) : Prop :=
  ∀ i j, Dict.get? s.memo i = some j → Done h s i j

theorem AllDone.step {s s' : St} (hi : Inv h s) (hd : AllDone h s) (hs : Step h s s') :
    AllDone h s' := by
  intro i j hm
  cases hb : Dict.get? s.memo i with
  | none => exact hs.fresh i j hb hm
  | some j' =>
    have := hs.memo i j' hb
    rw [hm] at this
    cases this
    exact (hd i j hb).mono hs (hi.range i j hb).2.2.1

theorem rel_mem {m : Dict ℕ ℕ} {vs vs' : List Val} (hr : List.Forall₂ (Rel h m) vs vs') {k : ℕ}
    (hk : Val.ref k ∈ vs) : Kept h k ∨ ∃ j, Dict.get? m k = some j := by
  induction hr with
  | nil => cases hk
  | cons r _ ih =>
    rcases List.mem_cons.1 hk with rfl | hk
    · rcases r with ⟨r, -⟩ | ⟨j, r, -⟩
      · exact .inl r
      · exact .inr ⟨j, r⟩
    · exact ih hk

theorem covers {s : St} (hd : AllDone h s) {vs vs' : List Val}
    (hr : List.Forall₂ (Rel h s.memo) vs vs') {i : ℕ} (hi : Reach h vs i) :
    Kept h i ∨ ∃ j, Dict.get? s.memo i = some j := by
  induction hi with
  | root hm => exact rel_mem hr hm
  | @step i k _ hh ih =>
    obtain ⟨o, h1, h2, h3⟩ := hh
    rcases ih with ih | ⟨j, ih⟩
    · rcases kept_shape h1 ih with h4 | ⟨-, h4⟩
      · rw [h2] at h4; cases h4
      · exact .inl (h4 k h3)
    · obtain ⟨o', vs, d1, -, d3⟩ := hd i j ih
      rw [h1] at d1; cases d1
      exact rel_mem d3 h3

theorem Reach.mono {vs ws : List Val} (hm : ∀ v ∈ vs, v ∈ ws) {i : ℕ} (hr : Reach h vs i) :
    Reach h ws i := by
  induction hr with
  | root h1 => exact .root (hm _ h1)
  | step _ h2 ih => exact .step ih h2

theorem Proper.sane {roots : List Val} (hp : Proper h roots) : Sane h (Reach h roots) :=
  ⟨fun _ _ hi hh => .step hi hh, hp.closed, hp.owned⟩

theorem forall₂_snoc {r : Val → Val → Prop} {vs vs' : List Val} (hr : List.Forall₂ r vs vs')
    {v v' : Val} (hv : r v v') : List.Forall₂ r (vs ++ [v]) (vs' ++ [v']) := by
  induction hr with
  | nil => exact .cons hv .nil
  | cons h1 _ ih => exact .cons h1 ih

theorem roots_done {roots : List Val} (hp : Proper h roots) (fuel : ℕ) :
    ∀ post pre pre' s vs' s', roots = pre ++ post → Inv h s → AllDone h s →
      List.Forall₂ (Rel h s.memo) pre pre' → copyList (copy fuel) post s = .ok (vs', s') →
      Step h s s' ∧ AllDone h s' ∧ List.Forall₂ (Rel h s'.memo) roots (pre' ++ vs') := by
  intro post
  induction post with
  | nil =>
    intro pre pre' s vs' s' e hi hd hr hc
    simp only [copyList, Except.ok.injEq, Prod.mk.injEq] at hc
    obtain ⟨rfl, rfl⟩ := hc
    rw [List.append_nil] at e ⊢
    subst e
    exact ⟨Step.refl hi, hd, hr⟩
  | cons v post ih =>
    intro pre pre' s vs' s' e hi hd hr hc
    simp only [copyList] at hc
    cases h1 : copy fuel v s with
    | error e => rw [h1] at hc; simp at hc
    | ok r =>
      obtain ⟨v1, s1⟩ := r
      rw [h1, ok_bind] at hc
      simp only at hc
      cases h2 : copyList (copy fuel) post s1 with
      | error e => rw [h2] at hc; simp at hc
      | ok q =>
        obtain ⟨vs2, s2⟩ := q
        rw [h2, ok_bind] at hc
        simp only [Except.ok.injEq, Prod.mk.injEq] at hc
        obtain ⟨rfl, rfl⟩ := hc
        have hent : Enter h (Reach h roots) s v := by
          intro b ob ev hn hob hsh i hRi hh
          subst ev
          rcases hp.entry pre b post e ob hob hsh with h3 | h3
          · exact absurd hh (h3 i hRi)
          · rcases covers hd hr h3 with h4 | ⟨j, h4⟩
            · rcases kept_shape hob h4 with h5 | ⟨h5, -⟩
              · rw [hsh] at h5; cases h5
              · rw [hsh] at h5; cases h5
            · rw [hn] at h4; cases h4
        obtain ⟨a1, a2, -⟩ := copy_works hp.sane fuel v s v1 s1 hi hent
          (fun k hk => .root (by rw [e, hk]; simp)) h1
        obtain ⟨b1, b2, b3⟩ := ih (pre ++ [v]) (pre' ++ [v1]) s1 vs2 s2 (by rw [e]; simp) a1.inv
          (hd.step hi a1) (forall₂_snoc (hr.imp fun _ _ q => q.mono a1.memo) a2) h2
        refine ⟨a1.trans b1, b2, ?_⟩
        rwa [List.append_assoc] at b3

/-- Where an object's copy is. -/
def place (m : Dict ℕ ℕ) (i : ℕ) : ℕ := (Dict.get? m i).getD i

theorem rel_rename {s : St} (hi : Inv h s) {vs vs' : List Val}
    (hr : List.Forall₂ (Rel h s.memo) vs vs') : vs' = vs.map (Val.rename (place s.memo)) := by
  induction hr with
  | nil => rfl
  | @cons x y l l' r _ ih =>
    rw [List.map_cons, ← ih]
    congr 1
    cases x with
    | atom n => exact r
    | ref i =>
      simp only [Val.rename, place]
      rcases r with ⟨r1, r2⟩ | ⟨j, r1, r2⟩
      · cases hm : Dict.get? s.memo i with
        | none => exact r2
        | some j => exact absurd r1 (hi.range i j hm).2.2.2
      · rw [r1]; exact r2

theorem start_inv (h : List Obj) : Inv h ⟨h, []⟩ :=
  ⟨fun _ _ => rfl, le_refl _, fun i j hm => by simp at hm, fun i i' j hm => by simp at hm⟩

theorem prefix_of_same {h h' : List Obj}
    (he : ∀ i < h.length, h'[i]? = h[i]?) : h <+: h' := by
  rw [List.prefix_iff_eq_take]
  apply List.ext_getElem?
  intro i
  by_cases hi : i < h.length
  · rw [List.getElem?_take_of_lt hi, he i hi]
  · rw [List.getElem?_eq_none (by omega), List.getElem?_eq_none (by simp; omega)]

theorem copied_of {roots : List Val} (hp : Proper h roots) {fuel : ℕ} {vs' : List Val} {s' : St}
    (hc : copyList (copy fuel) roots ⟨h, []⟩ = .ok (vs', s')) : Copied h roots s'.heap vs' := by
  obtain ⟨a1, a2, a3⟩ := roots_done hp fuel roots [] [] ⟨h, []⟩ vs' s' rfl (start_inv h)
    (fun i j hm => by simp at hm) .nil hc
  rw [List.nil_append] at a3
  have hi := a1.inv
  have hk : ∀ i, Kept h i → place s'.memo i = i := by
    intro i hki
    unfold place
    cases hm : Dict.get? s'.memo i with
    | none => rfl
    | some j => exact absurd hki (hi.range i j hm).2.2.2
  have hnk : ∀ i, Reach h roots i → ¬ Kept h i → Dict.get? s'.memo i = some (place s'.memo i) := by
    intro i hr hki
    rcases covers a2 a3 hr with h1 | ⟨j, h1⟩
    · exact absurd h1 hki
    · unfold place; rw [h1]; rfl
  refine ⟨prefix_of_same hi.orig, place s'.memo, rel_rename hi a3, ?_, fun i _ => hk i, ?_⟩
  · intro i k hri hrk e
    by_cases h1 : Kept h i <;> by_cases h2 : Kept h k
    · rw [hk i h1, hk k h2] at e; exact e
    · have := (hi.range k _ (hnk k hrk h2)).2.1
      rw [hk i h1] at e
      have := hp.closed i hri
      omega
    · have := (hi.range i _ (hnk i hri h1)).2.1
      rw [hk k h2] at e
      have := hp.closed k hrk
      omega
    · exact hi.inj i k _ (hnk i hri h1) (by rw [e]; exact hnk k hrk h2)
  · intro i hri hki
    have hm := hnk i hri hki
    refine ⟨(hi.range i _ hm).2.1, ?_⟩
    obtain ⟨o, vs, d1, d2, d3⟩ := a2 i _ hm
    exact ⟨o, d1, by rw [d2, rel_rename hi d3]⟩

/-- **C80.** `run_forecast` works on faithful copies of the people, accounts and debts: the
objects given to it are unchanged; every object that can be reached from the arguments (except
functions and tuples of constants) has exactly one copy, with the same contents, in which every
reference to an object has become a reference to the copy of that object. So accounts still belong
to their owners, spouses to each other and linked accounts to their groups - within and across the
three arguments. -/
theorem C80_copies {people accounts debts : Val} (hp : Proper h [people, accounts, debts])
    {fuel : ℕ} {args' : List Val} {s' : St}
    (hc : copyArgs fuel people accounts debts h = .ok (args', s')) :
    Copied h [people, accounts, debts] s'.heap args' := copied_of hp hc

/-! ### Nothing given is changed -/

/-- Specification: what cannot be changed, nor lead to anything that can: functions that only
compute numbers, and tuples and functions that hold nothing else. -/
inductive Frozen (h : List Obj) : ℕ → Prop
  | pure {i : ℕ} {o : Obj} : h[i]? = some o → o.shape = .pure → Frozen h i
  | fixed {i : ℕ} {o : Obj} : h[i]? = some o → o.shape = .tuple ∨ o.shape = .closure →
      (∀ k, Val.ref k ∈ o.items → Frozen h k) → Frozen h i

/-- Specification: everything code can get to from some values, calling functions too. -/
inductive ReachAll (h : List Obj) (vs : List Val) : ℕ → Prop
  | root {i : ℕ} : Val.ref i ∈ vs → ReachAll h vs i
  | step {i k : ℕ} {o : Obj} : ReachAll h vs i → h[i]? = some o → o.shape ≠ .pure →
      Val.ref k ∈ o.items → ReachAll h vs k

theorem frozen_of_kept {roots : List Val}
    (hf : ∀ i o, Reach h roots i → h[i]? = some o → o.shape = .closure → Frozen h i) {i : ℕ}
    (hk : Kept h i) (hr : Reach h roots i) : Frozen h i := by
  induction hk with
  | @func i o h1 h2 =>
    cases hs : o.shape with
    | pure => exact .pure h1 hs
    | closure => exact hf i o hr h1 hs
    | inst => rw [hs] at h2; cases h2
    | set => rw [hs] at h2; cases h2
    | tuple => rw [hs] at h2; cases h2
  | @tuple i o h1 h2 _ ih =>
    exact .fixed h1 (.inl h2) fun k hk => ih k hk (.step hr ⟨o, h1, by rw [h2]; rfl, hk⟩)

/-- What a program can get to (`A`), and what stays as it is (`P`). -/
structure Safe (h : List Obj) (P A : ℕ → Prop) (w : World) : Prop where
  same : ∀ i, P i → w.heap[i]? = h[i]?
  known : ∀ i, Val.ref i ∈ w.known → A i
  closed : ∀ i o k, A i → w.heap[i]? = some o → o.shape ≠ .pure → Val.ref k ∈ o.items → A k
  apart : ∀ i, A i → P i → ∃ o, h[i]? = some o ∧ o.shape.mutable = false
  here : ∀ i, P i → i < w.heap.length

theorem pick_known {w : World} {bs : List ℕ} {v : Val} (hv : v ∈ w.pick bs) : v ∈ w.known := by
  unfold World.pick at hv
  rw [List.mem_filterMap] at hv
  obtain ⟨b, -, hb⟩ := hv
  exact List.mem_of_getElem? hb

theorem at_known {w : World} {a i : ℕ} {o : Obj} (ha : w.at a = some (i, o)) :
    Val.ref i ∈ w.known ∧ w.heap[i]? = some o := by
  unfold World.at at ha
  cases hk : w.known[a]? with
  | none => rw [hk] at ha; cases ha
  | some v =>
    rw [hk] at ha
    cases v with
    | atom n => cases ha
    | ref j =>
      simp only [Option.map_eq_some_iff, Prod.mk.injEq] at ha
      obtain ⟨o', h1, rfl, rfl⟩ := ha
      exact ⟨List.mem_of_getElem? hk, h1⟩

theorem Safe.act {P A : ℕ → Prop} {w : World} (hs : Safe h P A w) (a : Act) :
    ∃ A', Safe h P A' (w.act a) := by
  cases a with
  | note n =>
    refine ⟨A, hs.same, fun i hi => ?_, hs.closed, hs.apart, hs.here⟩
    simp only [World.act, List.mem_append, List.mem_singleton, reduceCtorEq, or_false] at hi
    exact hs.known i hi
  | look a k =>
    simp only [World.act]
    cases ha : w.at a with
    | none => exact ⟨A, hs⟩
    | some r =>
      obtain ⟨i, o⟩ := r
      simp only
      split_ifs with hp
      · exact ⟨A, hs⟩
      · obtain ⟨h1, h2⟩ := at_known ha
        refine ⟨A, hs.same, fun j hj => ?_, hs.closed, hs.apart, hs.here⟩
        simp only [List.mem_append, Option.mem_toList] at hj
        rcases hj with hj | hj
        · exact hs.known j hj
        · exact hs.closed i o j (hs.known i h1) h2 hp (List.mem_of_getElem? hj)
  | make shape label bs =>
    refine ⟨fun i => A i ∨ i = w.heap.length, ?_, ?_, ?_, ?_, ?_⟩
    · intro i hi
      simp only [World.act]
      rw [List.getElem?_append_left (hs.here i hi)]
      exact hs.same i hi
    · intro i hi
      simp only [World.act, List.mem_append, List.mem_singleton, Val.ref.injEq] at hi
      exact hi.imp (hs.known i) id
    · intro i o k hi ho hp hk
      simp only [World.act] at ho
      by_cases hl : i < w.heap.length
      · rw [List.getElem?_append_left hl] at ho
        rcases hi with hi | hi
        · exact .inl (hs.closed i o k hi ho hp hk)
        · omega
      · rw [List.getElem?_append_right (by omega)] at ho
        have : i - w.heap.length = 0 := by
          by_contra hne
          rw [List.getElem?_eq_none (by simp; omega)] at ho
          cases ho
        rw [this] at ho
        simp only [List.getElem?_cons_zero, Option.some.injEq] at ho
        subst ho
        exact .inl (hs.known k (pick_known hk))
    · intro i hi hP
      rcases hi with hi | hi
      · exact hs.apart i hi hP
      · have := hs.here i hP; omega
    · intro i hi
      simp only [World.act, List.length_append, List.length_singleton]
      have := hs.here i hi
      omega
  | write a bs =>
    simp only [World.act]
    cases ha : w.at a with
    | none => exact ⟨A, hs⟩
    | some r =>
      obtain ⟨i, o⟩ := r
      simp only
      split_ifs with hp
      · obtain ⟨h1, h2⟩ := at_known ha
        have hA := hs.known i h1
        have hnP : ¬ P i := by
          intro hP
          obtain ⟨o', b1, b2⟩ := hs.apart i hA hP
          have := hs.same i hP
          rw [h2, b1] at this
          cases this
          rw [hp] at b2; cases b2
        refine ⟨A, ?_, hs.known, ?_, hs.apart, ?_⟩
        · intro j hj
          simp only
          rw [List.getElem?_set_ne (by rintro rfl; exact hnP hj)]
          exact hs.same j hj
        · intro j o' k hj ho' hp' hk
          simp only at ho'
          by_cases e : i = j
          · subst e
            rw [List.getElem?_set_self (List.getElem?_eq_some_iff.1 h2).1] at ho'
            cases ho'
            exact hs.known k (pick_known hk)
          · rw [List.getElem?_set_ne e] at ho'
            exact hs.closed j o' k hj ho' hp' hk
        · intro j hj
          simp only [List.length_set]
          exact hs.here j hj
      · exact ⟨A, hs⟩

theorem Safe.run {P A : ℕ → Prop} {w : World} (hs : Safe h P A w) (acts : List Act) :
    ∃ A', Safe h P A' (w.run acts) := by
  induction acts generalizing w A with
  | nil => exact ⟨A, hs⟩
  | cons a acts ih =>
    obtain ⟨A', h1⟩ := hs.act a
    exact ih h1

/-- **C80.** Whatever is done with the copies, and with other things that do not lead to the
people, accounts and debts given to `run_forecast`, leaves all objects reachable from these as
they were - provided no function among them has captured one of them. -/
theorem C80_nothing_changed {people accounts debts : Val} {h' : List Obj} {args' extra : List Val}
    (hp : Proper h [people, accounts, debts]) (hc : Copied h [people, accounts, debts] h' args')
    (hfun : ∀ i o, Reach h [people, accounts, debts] i → h[i]? = some o → o.shape = .closure →
      Frozen h i)
    (hex : ∀ k, ReachAll h extra k → k < h.length ∧
      (Reach h [people, accounts, debts] k → Frozen h k)) (acts : List Act) :
    ∀ i, Reach h [people, accounts, debts] i →
      (World.run ⟨h', args' ++ extra⟩ acts).heap[i]? = h[i]? := by
  obtain ⟨hpre, φ, hroots, hinj, hkept, hcopy⟩ := hc
  have hsame : ∀ i < h.length, h'[i]? = h[i]? := by
    intro i hi
    rw [List.prefix_iff_eq_append] at hpre
    rw [← hpre, List.getElem?_append_left hi]
  have hlen : h.length ≤ h'.length := hpre.length_le
  have frozen_lt : ∀ i, Frozen h i → i < h.length := by
    intro i hi
    cases hi with
    | pure h1 => exact (List.getElem?_eq_some_iff.1 h1).1
    | fixed h1 => exact (List.getElem?_eq_some_iff.1 h1).1
  have frozen_fixed : ∀ i, Frozen h i → ∃ o, h[i]? = some o ∧ o.shape.mutable = false := by
    intro i hi
    cases hi with
    | pure h1 h2 => exact ⟨_, h1, by rw [h2]; rfl⟩
    | fixed h1 h2 => exact ⟨_, h1, by rcases h2 with h2 | h2 <;> rw [h2] <;> rfl⟩
  -- where copies lead
  have hgo : ∀ k, Reach h [people, accounts, debts] k → Frozen h (φ k) ∨
      ∃ i, Reach h [people, accounts, debts] i ∧ ¬ Kept h i ∧ φ k = φ i := by
    intro k hk
    by_cases hkk : Kept h k
    · rw [hkept k hk hkk]; exact .inl (frozen_of_kept hfun hkk hk)
    · exact .inr ⟨k, hk, hkk, rfl⟩
  have hS : Safe h (Reach h [people, accounts, debts])
      (fun a => Frozen h a ∨ (∃ i, Reach h [people, accounts, debts] i ∧ ¬ Kept h i ∧ a = φ i) ∨
        ReachAll h extra a) ⟨h', args' ++ extra⟩ := by
    refine ⟨fun i hi => hsame i (hp.closed i hi), ?_, ?_, ?_, ?_⟩
    · intro i hi
      simp only [List.mem_append] at hi
      rcases hi with hi | hi
      · rw [hroots, List.mem_map] at hi
        obtain ⟨v, hv, e⟩ := hi
        cases v with
        | atom n => cases e
        | ref k =>
          simp only [Val.rename, Val.ref.injEq] at e
          subst e
          exact (hgo k (.root hv)).imp id .inl
      · exact .inr (.inr (.root hi))
    · intro i o k hi ho hpu hk
      simp only at ho
      rcases hi with hi | ⟨i0, h1, h2, rfl⟩ | hi
      · left
        rw [hsame i (frozen_lt i hi)] at ho
        cases hi with
        | pure h1 h2 => rw [ho] at h1; cases h1; exact absurd h2 hpu
        | fixed h1 _ h3 => rw [ho] at h1; cases h1; exact h3 k hk
      · obtain ⟨-, o0, g1, g2⟩ := hcopy i0 h1 h2
        rw [g2] at ho
        cases ho
        simp only [List.mem_map] at hk
        obtain ⟨v, hv, e⟩ := hk
        cases v with
        | atom n => cases e
        | ref k0 =>
          simp only [Val.rename, Val.ref.injEq] at e
          subst e
          have hfn : o0.shape.function = false := by
            cases hb : o0.shape.function with
            | false => rfl
            | true => exact absurd (.func g1 hb) h2
          exact (hgo k0 (.step h1 ⟨o0, g1, hfn, hv⟩)).imp id .inl
      · rw [hsame i (hex i hi).1] at ho
        exact .inr (.inr (.step hi ho hpu hk))
    · intro i hi hP
      rcases hi with hi | ⟨i0, h1, h2, rfl⟩ | hi
      · exact frozen_fixed i hi
      · have := (hcopy i0 h1 h2).1
        have := hp.closed _ hP
        omega
      · exact frozen_fixed i ((hex i hi).2 hP)
    · intro i hi
      exact lt_of_lt_of_le (hp.closed i hi) hlen
  obtain ⟨A', h2⟩ := hS.run acts
  exact h2.same

/-! ### Copying comes to an end -/

/-- The objects that have no copy yet and are not being copied. -/
def todo (h : List Obj) (s : St) (B : Finset ℕ) : Finset ℕ :=
  (Finset.range h.length).filter fun i => Dict.get? s.memo i = none ∧ i ∉ B

theorem todo_mono {s s' : St} (hs : Step h s s') (B : Finset ℕ) :
    (todo h s' B).card ≤ (todo h s B).card := by
  apply Finset.card_le_card
  intro i hi
  simp only [todo, Finset.mem_filter] at *
  refine ⟨hi.1, ?_, hi.2.2⟩
  cases hm : Dict.get? s.memo i with
  | none => rfl
  | some j => rw [hs.memo i j hm] at hi; cases hi.2.1

/-- How deep tuples are nested in a value. -/
def need (h : List Obj) (rank : ℕ → ℕ) : Val → ℕ
  | .atom _ => 0
  | .ref i =>
    match h[i]? with
    | some o => if o.shape = .tuple then rank i + 1 else 0
    | none => 0

theorem need_le {rank : ℕ → ℕ} {T : ℕ} (hT : ∀ i < h.length, rank i ≤ T) (v : Val) :
    need h rank v ≤ T + 1 := by
  cases v with
  | atom n => simp [need]
  | ref i =>
    cases ho : h[i]? with
    | none => simp [need, ho]
    | some o =>
      have := hT i (List.getElem?_eq_some_iff.1 ho).1
      simp only [need, ho]
      split_ifs <;> omega

theorem copyList_ok {f : Val → St → Except PyErr (Val × St)} (hf : Works h R f) {B : Finset ℕ} :
    ∀ vs s, Inv h s → (∀ v ∈ vs, Enter h R s v) → (∀ k, Val.ref k ∈ vs → R k) →
      (∀ b ∈ B, Busy h R s b ∧ Val.ref b ∉ vs) →
      (∀ v ∈ vs, ∀ s', Step h s s' → Enter h R s' v → (∀ b ∈ B, Busy h R s' b) →
        ∃ r, f v s' = .ok r) → ∃ r, copyList f vs s = .ok r := by
  intro vs
  induction vs with
  | nil => intro s _ _ _ _ _; exact ⟨_, rfl⟩
  | cons v vs ih =>
    intro s hi he hR hB hok
    obtain ⟨⟨v1, s1⟩, h1⟩ := hok v (by simp) s (Step.refl hi) (he v (by simp))
      fun b hb => (hB b hb).1
    obtain ⟨a1, -, a3⟩ := hf v s v1 s1 hi (he v (by simp)) (fun k hk => hR k (by simp [hk])) h1
    have hB' : ∀ b ∈ B, Busy h R s1 b ∧ Val.ref b ∉ vs := by
      intro b hb
      obtain ⟨b1, b2⟩ := hB b hb
      rw [List.mem_cons, not_or] at b2
      exact ⟨⟨a3 b b1 (fun e => b2.1 e.symm), fun i hi hh => a1.stays (b1.2 i hi hh)⟩, b2.2⟩
    obtain ⟨⟨vs2, s2⟩, h2⟩ := ih s1 a1.inv (fun w hw => (he w (by simp [hw])).mono a1)
      (fun k hk => hR k (by simp [hk])) hB'
      (fun w hw s' hs he' hb => hok w (by simp [hw]) s' (a1.trans hs) he' hb)
    refine ⟨(v1 :: vs2, s2), ?_⟩
    simp only [copyList]
    rw [h1, ok_bind]
    simp only
    rw [h2, ok_bind]

theorem copy_ok (hS : Sane h R) {rank : ℕ → ℕ} {T : ℕ} (hT : ∀ i < h.length, rank i ≤ T)
    (hrank : ∀ i k oi ok, R i → h[i]? = some oi → oi.shape = .tuple → h[k]? = some ok →
      ok.shape = .tuple → Holds h i k → rank k < rank i) :
    ∀ fuel v s (B : Finset ℕ), Inv h s → Enter h R s v → (∀ k, v = .ref k → R k) →
      (∀ b ∈ B, Busy h R s b ∧ v ≠ .ref b) →
      (todo h s B).card * (T + 2) + need h rank v < fuel → ∃ r, copy fuel v s = .ok r := by
  intro fuel
  induction fuel with
  | zero => intro v s B _ _ _ _ hf; omega
  | succ fuel ih =>
    intro v s B hi he hR hB hf
    cases v with
    | atom n => exact ⟨_, rfl⟩
    | ref i =>
      have hRi := hR i rfl
      have hil := hS.closed i hRi
      have ho : h[i]? = some h[i] := List.getElem?_eq_getElem hil
      generalize h[i] = o at ho
      simp only [copy]
      cases hm : Dict.get? s.memo i with
      | some j => exact ⟨_, rfl⟩
      | none =>
        simp only
        rw [hi.orig i hil, ho]
        simp only
        have hiB : i ∉ B := fun hb => (hB i hb).2 rfl
        have hmem : i ∈ todo h s B := by
          simp only [todo, Finset.mem_filter, Finset.mem_range]
          exact ⟨hil, hm, hiB⟩
        have hnot : o.shape.function = false → ∀ b ∈ B, Val.ref b ∉ o.items := by
          intro hfun b hb hmm
          exact (hB b hb).1.2 i hRi ⟨o, ho, hfun, hmm⟩ hm
        have hRitems : o.shape.function = false → ∀ k, Val.ref k ∈ o.items → R k :=
          fun hfun k hk => hS.step i k hRi ⟨o, ho, hfun, hk⟩
        have hset : o.shape.function = false → o.shape ≠ .inst → ∀ s0, ∀ v ∈ o.items,
            Enter h R s0 v := by
          intro hfun hne s0 v hv b ob e _ hob hsh
          subst e
          obtain ⟨⟨o', h1, h2⟩, -⟩ := hS.owned b ob hob hsh i hRi ⟨o, ho, hfun, hv⟩
          rw [ho] at h1; cases h1
          exact absurd h2 hne
        unfold copyObj
        cases hsh : o.shape with
        | pure => exact ⟨_, rfl⟩
        | closure => exact ⟨_, rfl⟩
        | inst =>
          have hfun : o.shape.function = false := by rw [hsh]; rfl
          simp only
          generalize hs1 : push s i { shape := Shape.inst, label := o.label, items := [] } = s1
          have hm1 : ∀ i', Dict.get? s1.memo i' = if i = i' then some s.heap.length
              else Dict.get? s.memo i' := by
            intro i'; rw [← hs1]; simp only [push]; rw [Dict.get?_set]
          have hk : ¬ Kept h i := by
            intro hk
            rcases kept_shape ho hk with h1 | ⟨h1, -⟩
            · rw [hfun] at h1; cases h1
            · rw [hsh] at h1; cases h1
          have hl1 : s1.heap.length = s.heap.length + 1 := by rw [← hs1]; simp [push]
          have hi1 : Inv h s1 := by
            refine ⟨?_, ?_, ?_, ?_⟩
            · intro k hk
              rw [← hs1]; simp only [push]
              rw [List.getElem?_append_left (lt_of_lt_of_le hk hi.len)]
              exact hi.orig k hk
            · have := hi.len; omega
            · intro i' j hj
              rw [hm1] at hj
              split_ifs at hj with e
              · cases hj; subst e; exact ⟨hil, hi.len, by omega, hk⟩
              · obtain ⟨a, b, c, d⟩ := hi.range i' j hj
                exact ⟨a, b, by omega, d⟩
            · intro i1 i2 j h1 h2
              rw [hm1] at h1 h2
              split_ifs at h1 h2 with e1 e2 e2
              · exact e1.symm.trans e2
              · cases h1; have := (hi.range _ _ h2).2.2.1; omega
              · cases h2; have := (hi.range _ _ h1).2.2.1; omega
              · exact hi.inj _ _ _ h1 h2
          have hcard : (todo h s1 B).card + 1 ≤ (todo h s B).card := by
            rw [Nat.succ_le_iff]
            apply Finset.card_lt_card
            rw [Finset.ssubset_iff_of_subset]
            · refine ⟨i, hmem, ?_⟩
              simp [todo, hm1]
            · intro k hk
              simp only [todo, Finset.mem_filter] at *
              refine ⟨hk.1, ?_, hk.2.2⟩
              have := hk.2.1
              rw [hm1] at this
              split_ifs at this
              exact this
          have hent : ∀ v ∈ o.items, Enter h R s1 v := by
            intro v hv b ob e _ hob hsh' k hRk hh
            subst e
            obtain ⟨-, hu⟩ := hS.owned b ob hob hsh' i hRi ⟨o, ho, hfun, hv⟩
            rw [hu k hRk hh, hm1, if_pos rfl]
            simp
          have hB1 : ∀ b ∈ B, Busy h R s1 b ∧ Val.ref b ∉ o.items := by
            intro b hb
            refine ⟨⟨?_, ?_⟩, hnot hfun b hb⟩
            · rw [hm1, if_neg (by rintro rfl; exact hiB hb)]; exact (hB b hb).1.1
            · intro k hRk hh
              rw [hm1]
              split_ifs
              · simp
              · exact (hB b hb).1.2 k hRk hh
          obtain ⟨r, hr⟩ := copyList_ok (copy_works hS fuel) o.items s1 hi1 hent (hRitems hfun) hB1
            (fun v hv s' hs' he' hb' => by
              refine ih v s' B hs'.inv he' (fun k hk => hRitems hfun k (hk ▸ hv))
                (fun b hb => ⟨hb' b hb, fun e => hnot hfun b hb (e ▸ hv)⟩) ?_
              have h1 := todo_mono hs' B
              have h2 := need_le hT v
              have h3 : ((todo h s' B).card + 1) * (T + 2) ≤ (todo h s B).card * (T + 2) :=
                Nat.mul_le_mul_right _ (by omega)
              have h4 : ((todo h s' B).card + 1) * (T + 2)
                  = (todo h s' B).card * (T + 2) + (T + 2) := by ring
              omega)
          rw [hr]
          exact ⟨_, rfl⟩
        | set =>
          have hfun : o.shape.function = false := by rw [hsh]; rfl
          simp only
          have hbi : Busy h R s i := ⟨hm, he i o rfl hm ho hsh⟩
          have hself : Val.ref i ∉ o.items := fun hmm => hbi.2 i hRi ⟨o, ho, hfun, hmm⟩ hm
          have hcard : (todo h s (insert i B)).card + 1 ≤ (todo h s B).card := by
            rw [Nat.succ_le_iff]
            apply Finset.card_lt_card
            rw [Finset.ssubset_iff_of_subset]
            · refine ⟨i, hmem, ?_⟩
              simp [todo]
            · intro k hk
              simp only [todo, Finset.mem_filter, Finset.mem_insert, not_or] at *
              exact ⟨hk.1, hk.2.1, hk.2.2.2⟩
          have hB1 : ∀ b ∈ insert i B, Busy h R s b ∧ Val.ref b ∉ o.items := by
            intro b hb
            rcases Finset.mem_insert.1 hb with rfl | hb
            · exact ⟨hbi, hself⟩
            · exact ⟨(hB b hb).1, hnot hfun b hb⟩
          obtain ⟨r, hr⟩ := copyList_ok (copy_works hS fuel) o.items s hi
            (hset hfun (by rw [hsh]; decide) s) (hRitems hfun) hB1
            (fun v hv s' hs' he' hb' => by
              refine ih v s' (insert i B) hs'.inv he' (fun k hk => hRitems hfun k (hk ▸ hv))
                (fun b hb => ⟨hb' b hb, fun e => (hB1 b hb).2 (e ▸ hv)⟩) ?_
              have h1 := todo_mono hs' (insert i B)
              have h2 := need_le hT v
              have h3 : ((todo h s' (insert i B)).card + 1) * (T + 2)
                  ≤ (todo h s B).card * (T + 2) := Nat.mul_le_mul_right _ (by omega)
              have h4 : ((todo h s' (insert i B)).card + 1) * (T + 2)
                  = (todo h s' (insert i B)).card * (T + 2) + (T + 2) := by ring
              omega)
          rw [hr]
          exact ⟨_, rfl⟩
        | tuple =>
          have hfun : o.shape.function = false := by rw [hsh]; rfl
          simp only
          obtain ⟨r, hr⟩ := copyList_ok (copy_works hS fuel) o.items s hi
            (hset hfun (by rw [hsh]; decide) s) (hRitems hfun)
            (fun b hb => ⟨(hB b hb).1, hnot hfun b hb⟩)
            (fun v hv s' hs' he' hb' => by
              refine ih v s' B hs'.inv he' (fun k hk => hRitems hfun k (hk ▸ hv))
                (fun b hb => ⟨hb' b hb, fun e => hnot hfun b hb (e ▸ hv)⟩) ?_
              have h1 := todo_mono hs' B
              have h3 : (todo h s' B).card * (T + 2) ≤ (todo h s B).card * (T + 2) :=
                Nat.mul_le_mul_right _ h1
              have h4 : need h rank (.ref i) = rank i + 1 := by
                simp [need, ho, hsh]
              have h5 : need h rank v ≤ rank i := by
                cases v with
                | atom n => simp [need]
                | ref k =>
                  cases hok : h[k]? with
                  | none => simp [need, hok]
                  | some ok =>
                    simp only [need, hok]
                    split_ifs with ht
                    · exact hrank i k o ok hRi ho hsh hok ht ⟨o, ho, hfun, hv⟩
                    · omega
              omega)
          rw [hr]
          exact ⟨_, rfl⟩

/-- **C80.** The copying comes to an end, whatever cycles the data has (Python's recursion limit
being large enough), as long as tuples are not nested in themselves. -/
theorem C80_completes {people accounts debts : Val} (hp : Proper h [people, accounts, debts])
    {rank : ℕ → ℕ} (hrank : ∀ i k oi ok, Reach h [people, accounts, debts] i → h[i]? = some oi →
      oi.shape = .tuple → h[k]? = some ok → ok.shape = .tuple → Holds h i k → rank k < rank i) :
    ∃ limit, ∀ fuel ≥ limit, ∃ r, copyArgs fuel people accounts debts h = .ok r := by
  obtain ⟨T, hT⟩ : ∃ T, ∀ i < h.length, rank i ≤ T :=
    ⟨∑ i ∈ Finset.range h.length, rank i, fun i hi =>
      Finset.single_le_sum (fun _ _ => Nat.zero_le _) (Finset.mem_range.2 hi)⟩
  refine ⟨h.length * (T + 2) + T + 2, fun fuel hfuel => ?_⟩
  suffices ∀ post pre pre' s, [people, accounts, debts] = pre ++ post → Inv h s → AllDone h s →
      List.Forall₂ (Rel h s.memo) pre pre' → ∃ r, copyList (copy fuel) post s = .ok r from
    this _ [] [] ⟨h, []⟩ rfl (start_inv h) (fun i j hm => by simp at hm) .nil
  intro post
  induction post with
  | nil => intro _ _ s _ _ _ _; exact ⟨_, rfl⟩
  | cons v post ih =>
    intro pre pre' s e hi hd hr
    have hent : Enter h (Reach h [people, accounts, debts]) s v := by
      intro b ob ev hn hob hsh i hRi hh
      subst ev
      rcases hp.entry pre b post e ob hob hsh with h3 | h3
      · exact absurd hh (h3 i hRi)
      · rcases covers hd hr h3 with h4 | ⟨j, h4⟩
        · rcases kept_shape hob h4 with h5 | ⟨h5, -⟩
          · rw [hsh] at h5; cases h5
          · rw [hsh] at h5; cases h5
        · rw [hn] at h4; cases h4
    have hR : ∀ k, v = .ref k → Reach h [people, accounts, debts] k :=
      fun k hk => .root (by rw [e, hk]; simp)
    have hcard : (todo h s ∅).card ≤ h.length := by
      refine (Finset.card_filter_le _ _).trans ?_
      simp
    obtain ⟨⟨v1, s1⟩, h1⟩ := copy_ok hp.sane hT hrank fuel v s ∅ hi hent hR (by simp) (by
      have h2 := need_le hT v
      have h3 : (todo h s ∅).card * (T + 2) ≤ h.length * (T + 2) := Nat.mul_le_mul_right _ hcard
      omega)
    obtain ⟨a1, a2, -⟩ := copy_works hp.sane fuel v s v1 s1 hi hent hR h1
    obtain ⟨⟨vs2, s2⟩, h2⟩ := ih (pre ++ [v]) (pre' ++ [v1]) s1 (by rw [e]; simp) a1.inv
      (hd.step hi a1) (forall₂_snoc (hr.imp fun _ _ q => q.mono a1.memo) a2)
    refine ⟨(v1 :: vs2, s2), ?_⟩
    simp only [copyList]
    rw [h1, ok_bind]
    simp only
    rw [h2, ok_bind]

/-! ### Running again -/

theorem holds_congr {g : List Obj} {i k : ℕ} (he : g[i]? = h[i]?) : Holds g i k ↔ Holds h i k := by
  unfold Holds; rw [he]

theorem reach_congr {g : List Obj} {roots : List Val}
    (he : ∀ i, Reach h roots i → g[i]? = h[i]?) {vs : List Val} (hv : ∀ v ∈ vs, v ∈ roots) {i : ℕ} :
    Reach g vs i ↔ Reach h vs i := by
  constructor
  · intro hr
    induction hr with
    | root h1 => exact .root h1
    | step _ h2 ih => exact .step ih ((holds_congr (he _ (ih.mono hv))).1 h2)
  · intro hr
    induction hr with
    | root h1 => exact .root h1
    | step h1 h2 ih => exact .step ih ((holds_congr (he _ (h1.mono hv))).2 h2)

theorem Proper.congr {g : List Obj} {roots : List Val} (hp : Proper h roots)
    (he : ∀ i, Reach h roots i → g[i]? = h[i]?) : Proper g roots := by
  have hr : ∀ i, Reach g roots i ↔ Reach h roots i := fun i => reach_congr he (fun _ hv => hv)
  refine ⟨fun i hi => ?_, fun b ob hb hs i hi hh => ?_, fun pre b post e ob hb hs => ?_⟩
  · have h1 := (hr i).1 hi
    have h2 := hp.closed i h1
    have h3 := he i h1
    rw [List.getElem?_eq_getElem h2] at h3
    exact (List.getElem?_eq_some_iff.1 h3).1
  · have h1 := (hr i).1 hi
    have h2 := (holds_congr (he i h1)).1 hh
    have h3 : Reach h roots b := .step h1 h2
    rw [he b h3] at hb
    obtain ⟨⟨o, a1, a2⟩, a3⟩ := hp.owned b ob hb hs i h1 h2
    refine ⟨⟨o, by rw [he i h1]; exact a1, a2⟩, fun k hk hh' => ?_⟩
    have h4 := (hr k).1 hk
    exact a3 k h4 ((holds_congr (he k h4)).1 hh')
  · have hb' : Reach h roots b := .root (by rw [e]; simp)
    rw [he b hb'] at hb
    rcases hp.entry pre b post e ob hb hs with h1 | h1
    · left
      intro i hi hh
      have h4 := (hr i).1 hi
      exact h1 i h4 ((holds_congr (he i h4)).1 hh)
    · exact .inr ((reach_congr he (fun v hv => by rw [e]; simp [hv])).2 h1)

private theorem run_notes (w : World) (ns : List ℕ) :
    w.run (ns.map .note) = { w with known := w.known ++ ns.map Val.atom } := by
  induction ns generalizing w with
  | nil => simp [World.run]
  | cons n ns ih =>
    have := ih (w.act (.note n))
    simp only [World.run, List.map_cons, List.foldl_cons] at this ⊢
    rw [this]
    simp [World.act]

/-- **C80.** The programs considered above leave nothing out that a forecast could do to objects
it has got hold of: they can change an object's contents to any numbers at all. -/
theorem C80_any_numbers (w : World) {a i : ℕ} {o : Obj} (ha : w.known[a]? = some (.ref i))
    (ho : w.heap[i]? = some o) (hm : o.shape = .inst ∨ o.shape = .set) (ns : List ℕ) :
    ∃ acts, (w.run acts).heap = w.heap.set i { o with items := ns.map .atom } := by
  refine ⟨ns.map .note ++ [.write a ((List.range ns.length).map (w.known.length + ·))], ?_⟩
  have h1 : (w.known ++ ns.map Val.atom)[a]? = some (.ref i) := by
    rw [List.getElem?_append_left, ha]
    exact (List.getElem?_eq_some_iff.1 ha).1
  have h2 : o.shape.mutable = true := by rcases hm with h | h <;> rw [h] <;> rfl
  have h0 := run_notes w ns
  unfold World.run at h0 ⊢
  rw [List.foldl_append, h0, List.foldl_cons, List.foldl_nil]
  simp only [World.act, World.at, h1, ho, Option.map_some, h2, if_true]
  congr 2
  simp only [World.pick, List.filterMap_map]
  have h3 : ∀ k, (w.known ++ ns.map Val.atom)[w.known.length + k]? = (ns.map Val.atom)[k]? := by
    intro k; rw [List.getElem?_append_right (by omega)]; congr 1; omega
  have : ∀ l : List Val, (List.range l.length).filterMap (fun k => l[k]?) = l := by
    intro l
    apply List.ext_getElem?
    intro k
    induction l using List.reverseRecOn generalizing k with
    | nil => rfl
    | append_singleton l x ih =>
      have : (List.range l.length).filterMap (fun k => (l ++ [x])[k]?) = l := by
        rw [List.filterMap_congr (g := fun k => l[k]?)]
        · exact List.ext_getElem? ih
        · intro k hk
          exact List.getElem?_append_left (List.mem_range.1 hk)
      simp [List.range_succ, List.filterMap_append, this]
  have h4 := this (ns.map Val.atom)
  rw [List.length_map] at h4
  refine Eq.trans (List.filterMap_congr fun k _ => ?_) h4
  exact h3 k
/-- **C80.** A second forecast from the same arguments, after whatever the first one did, again
works on faithful copies of the same, unchanged objects. -/
theorem C80_again {people accounts debts : Val} {h' : List Obj} {args' extra : List Val}
    (hp : Proper h [people, accounts, debts]) (hc : Copied h [people, accounts, debts] h' args')
    (hfun : ∀ i o, Reach h [people, accounts, debts] i → h[i]? = some o → o.shape = .closure →
      Frozen h i)
    (hex : ∀ k, ReachAll h extra k → k < h.length ∧
      (Reach h [people, accounts, debts] k → Frozen h k)) (acts : List Act)
    {fuel : ℕ} {args'' : List Val} {s'' : St}
    (h2 : copyArgs fuel people accounts debts (World.run ⟨h', args' ++ extra⟩ acts).heap
      = .ok (args'', s'')) :
    Copied (World.run ⟨h', args' ++ extra⟩ acts).heap [people, accounts, debts] s''.heap args'' ∧
    ∀ i, (Reach (World.run ⟨h', args' ++ extra⟩ acts).heap [people, accounts, debts] i ↔
        Reach h [people, accounts, debts] i) ∧
      (Reach h [people, accounts, debts] i → s''.heap[i]? = h[i]?) := by
  have he := C80_nothing_changed hp hc hfun hex acts
  have hp2 := hp.congr he
  have hc2 := copied_of hp2 h2
  refine ⟨hc2, fun i => ⟨reach_congr he (fun _ hv => hv), fun hi => ?_⟩⟩
  rw [← he i hi]
  have h3 := hp2.closed i ((reach_congr he (fun _ hv => hv)).2 hi)
  have hpre := hc2.1
  rw [List.prefix_iff_eq_append] at hpre
  rw [← hpre, List.getElem?_append_left h3]

/-! ### A couple -/

section examples

/-- A couple (1, 2) with an account each (5, 6), linked: person 1's data (7) holds the record (10)
with the group (13); account 5 has a link (9), a rate function object (11) that knows its owner
and a scenario (14), and a `lambda` (12) that converts numbers. The arguments are the sets 0, 15,
16. -/
def exHeap : List Obj :=
  [⟨.set, 0, [.ref 1, .ref 2]⟩,
   ⟨.inst, 1, [.atom 70, .ref 2, .ref 3, .ref 7]⟩,
   ⟨.inst, 1, [.atom 71, .ref 1, .ref 4, .ref 8]⟩,
   ⟨.set, 0, [.ref 5]⟩,
   ⟨.set, 0, [.ref 6]⟩,
   ⟨.inst, 2, [.ref 1, .ref 9, .ref 11, .ref 12, .ref 17]⟩,
   ⟨.inst, 2, [.ref 2, .ref 9, .atom 5]⟩,
   ⟨.inst, 3, [.atom 1, .ref 10]⟩,
   ⟨.inst, 3, []⟩,
   ⟨.inst, 4, [.ref 1, .atom 1]⟩,
   ⟨.inst, 5, [.ref 13, .atom 100]⟩,
   ⟨.inst, 6, [.ref 14, .ref 1]⟩,
   ⟨.pure, 7, [.ref 5]⟩,
   ⟨.set, 0, [.ref 5, .ref 6]⟩,
   ⟨.inst, 8, [.atom 2020]⟩,
   ⟨.set, 0, [.ref 5, .ref 6]⟩,
   ⟨.set, 0, []⟩,
   ⟨.tuple, 9, [.atom 0, .atom 1]⟩]

/-- `Holds` as a test. -/
def holds (h : List Obj) (i k : ℕ) : Bool :=
  match h[i]? with
  | some o => !o.shape.function && decide (Val.ref k ∈ o.items)
  | none => false

theorem holds_iff {h : List Obj} {i k : ℕ} : Holds h i k ↔ holds h i k = true := by
  unfold Holds holds
  cases h[i]? with
  | none => simp
  | some o => simp

/-- Whether an object is a set. -/
def isSet (h : List Obj) (b : ℕ) : Bool :=
  match h[b]? with
  | some o => decide (o.shape = .set)
  | none => false

/-- Whether an object is an instance. -/
def isInst (h : List Obj) (b : ℕ) : Bool :=
  match h[b]? with
  | some o => decide (o.shape = .inst)
  | none => false

/-- Whether a value leads somewhere. -/
def leads (h : List Obj) : Val → Bool
  | .atom _ => true
  | .ref k => decide (k < h.length)

/-- Whether all references lead somewhere. -/
def refsOk (h : List Obj) (roots : List Val) : Bool :=
  roots.all (leads h) && h.all fun o => o.items.all (leads h)

/-- Whether every set belongs to one instance. -/
def setsOk (h : List Obj) : Bool :=
  (List.range h.length).all fun b => !isSet h b || (List.range h.length).all fun i =>
    !holds h i b || (isInst h i && (List.range h.length).all fun k => !holds h k b || k == i)

/-- Whether a set belongs to nothing. -/
def freeOk (h : List Obj) (b : ℕ) : Bool := (List.range h.length).all fun i => !holds h i b

/-- `Proper` can be checked object by object. -/
theorem proper_of {h : List Obj} {roots : List Val} (h1 : refsOk h roots = true)
    (h2 : setsOk h = true)
    (h3 : ∀ pre b post, roots = pre ++ Val.ref b :: post → freeOk h b = true ∨ Reach h pre b) :
    Proper h roots := by
  simp only [refsOk, Bool.and_eq_true, List.all_eq_true] at h1
  simp only [setsOk, List.all_eq_true, Bool.or_eq_true, Bool.and_eq_true, Bool.not_eq_true',
    List.mem_range, beq_iff_eq] at h2
  have hcl : ∀ i, Reach h roots i → i < h.length := by
    intro i hi
    cases hi with
    | root hm => simpa [leads] using h1.1 _ hm
    | step _ hh =>
      obtain ⟨o, ho, -, hm⟩ := hh
      simpa [leads] using h1.2 o (List.mem_of_getElem? ho) _ hm
  refine ⟨hcl, ?_, ?_⟩
  · intro b ob hb hs i hi hh
    have hbl := (List.getElem?_eq_some_iff.1 hb).1
    have hset : isSet h b = true := by unfold isSet; rw [hb]; simp [hs]
    rcases h2 b hbl with a | a
    · rw [hset] at a; cases a
    · rcases a i (hcl i hi) with a | ⟨a1, a2⟩
      · rw [holds_iff.1 hh] at a; cases a
      · refine ⟨?_, fun k hk hh' => ?_⟩
        · unfold isInst at a1
          cases ho : h[i]? with
          | none => rw [ho] at a1; cases a1
          | some o => rw [ho] at a1; exact ⟨o, rfl, by simpa using a1⟩
        · rcases a2 k (hcl k hk) with a | a
          · rw [holds_iff.1 hh'] at a; cases a
          · exact a
  · intro pre b post e ob hb hs
    rcases h3 pre b post e with a | a
    · left
      intro i hi hh
      simp only [freeOk, List.all_eq_true, List.mem_range, Bool.not_eq_true'] at a
      have := a i (hcl i hi)
      rw [holds_iff.1 hh] at this
      cases this
    · exact .inr a

/-- The arguments are sets of their own ... -/
theorem exProper : Proper exHeap [.ref 0, .ref 15, .ref 16] := by
  refine proper_of (by decide +kernel) (by decide +kernel) ?_
  intro pre b post e
  left
  have hb : Val.ref b ∈ [Val.ref 0, .ref 15, .ref 16] := by rw [e]; simp
  simp only [List.mem_cons, Val.ref.injEq, List.not_mem_nil, or_false] at hb
  rcases hb with rfl | rfl | rfl <;> decide +kernel

/-- ... or the accounts are given as `person.accounts`. -/
example : Proper exHeap [.ref 0, .ref 3, .ref 16] := by
  refine proper_of (by decide +kernel) (by decide +kernel) ?_
  intro pre b post e
  have hb : Val.ref b ∈ [Val.ref 0, .ref 3, .ref 16] := by rw [e]; simp
  simp only [List.mem_cons, Val.ref.injEq, List.not_mem_nil, or_false] at hb
  rcases hb with rfl | rfl | rfl
  · left; decide +kernel
  · right
    have hpre : Val.ref 0 ∈ pre := by
      cases pre with
      | nil => simp at e
      | cons x pre => simp only [List.cons_append, List.cons.injEq] at e; simp [← e.1]
    exact .step (.step (.root hpre) (i := 0) (k := 1) ⟨_, rfl, rfl, by decide⟩)
      ⟨_, rfl, rfl, by decide⟩
  · left; decide +kernel

/-- The copies are 31, 32 and 33: the couple 18 and 19 (still each other's spouses), the accounts
24 and 20, the group 30 of the link. -/
example : (copyArgs 50 (.ref 0) (.ref 15) (.ref 16) exHeap).map
      (fun r => (r.1, r.2.heap.drop 18)) =
    .ok ([.ref 31, .ref 32, .ref 33],
      [⟨.inst, 1, [.atom 70, .ref 19, .ref 27, .ref 28]⟩,
       ⟨.inst, 1, [.atom 71, .ref 18, .ref 22, .ref 23]⟩,
       ⟨.inst, 2, [.ref 19, .ref 21, .atom 5]⟩,
       ⟨.inst, 4, [.ref 18, .atom 1]⟩,
       ⟨.set, 0, [.ref 20]⟩,
       ⟨.inst, 3, []⟩,
       ⟨.inst, 2, [.ref 18, .ref 21, .ref 25, .ref 12, .ref 17]⟩,
       ⟨.inst, 6, [.ref 26, .ref 18]⟩,
       ⟨.inst, 8, [.atom 2020]⟩,
       ⟨.set, 0, [.ref 24]⟩,
       ⟨.inst, 3, [.atom 1, .ref 29]⟩,
       ⟨.inst, 5, [.ref 30, .atom 100]⟩,
       ⟨.set, 0, [.ref 24, .ref 20]⟩,
       ⟨.set, 0, [.ref 18, .ref 19]⟩,
       ⟨.set, 0, [.ref 24, .ref 20]⟩,
       ⟨.set, 0, []⟩]) := by decide +kernel

/-- The other hypotheses of `C80_nothing_changed`, `C80_again` and `C80_completes` are met: there
are no closures, the tuple holds no tuple; something else is at hand that leads nowhere near. -/
example : (∀ i o, Reach exHeap [.ref 0, .ref 15, .ref 16] i → exHeap[i]? = some o →
      o.shape = .closure → Frozen exHeap i) ∧
    (∀ k, ReachAll exHeap [.ref 12, .ref 17, .atom 3] k → k < exHeap.length ∧
      (Reach exHeap [.ref 0, .ref 15, .ref 16] k → Frozen exHeap k)) ∧
    (∀ i k oi ok, Reach exHeap [.ref 0, .ref 15, .ref 16] i → exHeap[i]? = some oi →
      oi.shape = .tuple → exHeap[k]? = some ok → ok.shape = .tuple → Holds exHeap i k →
      (fun _ => 0 : ℕ → ℕ) k < (fun _ => 0 : ℕ → ℕ) i) := by
  have hnc : ∀ o ∈ exHeap, o.shape ≠ .closure := by decide +kernel
  have ht : ∀ o ∈ exHeap, o.shape = .tuple → o.items = [.atom 0, .atom 1] := by decide +kernel
  refine ⟨fun i o _ ho hs => absurd hs (hnc o (List.mem_of_getElem? ho)), fun k hk => ?_,
    fun i k oi ok _ ho hs _ _ hh => ?_⟩
  · have h12 : exHeap[12]? = some ⟨.pure, 7, [.ref 5]⟩ := rfl
    have h17 : exHeap[17]? = some ⟨.tuple, 9, [.atom 0, .atom 1]⟩ := rfl
    have : k = 12 ∨ k = 17 := by
      induction hk with
      | root hm => simpa using hm
      | step _ ho hp hm ih =>
        rcases ih with rfl | rfl
        · rw [h12] at ho; cases ho; exact absurd rfl hp
        · rw [h17] at ho; cases ho; simp at hm
    rcases this with rfl | rfl
    · exact ⟨by decide, fun _ => .pure h12 rfl⟩
    · exact ⟨by decide, fun _ => .fixed h17 (.inl rfl) (by simp)⟩
  · obtain ⟨o, h1, -, h2⟩ := hh
    rw [ho] at h1; cases h1
    rw [ht oi (List.mem_of_getElem? ho) hs] at h2
    simp at h2

/-- An account (3) whose rate is a function (4) that has captured the account's owner (1). -/
def exCaptured : List Obj :=
  [⟨.set, 0, [.ref 1]⟩, ⟨.inst, 1, [.ref 2, .atom 40]⟩, ⟨.set, 0, [.ref 3]⟩,
   ⟨.inst, 2, [.ref 1, .ref 4]⟩, ⟨.closure, 3, [.ref 1]⟩, ⟨.set, 0, [.ref 3]⟩, ⟨.set, 0, []⟩]

theorem exCaptured_proper : Proper exCaptured [.ref 0, .ref 5, .ref 6] := by
  refine proper_of (by decide +kernel) (by decide +kernel) ?_
  intro pre b post e
  left
  have hb : Val.ref b ∈ [Val.ref 0, .ref 5, .ref 6] := by rw [e]; simp
  simp only [List.mem_cons, Val.ref.injEq, List.not_mem_nil, or_false] at hb
  rcases hb with rfl | rfl | rfl <;> decide +kernel

/-- C80 (functions, refuted): what a function has captured is not copied. If an account's rate is
a function that uses the account's owner, then a forecast can get hold of, and change, the person
it was given - here it goes from the copied accounts to the account, its rate function and the
person. (`AllocationStrategy.rate_function` returns an object instead, which is copied.) -/
theorem C80_captured_refuted :
    ∃ (h : List Obj) (people accounts debts : Val) (args' : List Val) (s' : St) (acts : List Act)
      (i : ℕ), Proper h [people, accounts, debts] ∧
      copyArgs 50 people accounts debts h = .ok (args', s') ∧
      Reach h [people, accounts, debts] i ∧
      (World.run ⟨s'.heap, args'⟩ acts).heap[i]? ≠ h[i]? := by
  refine ⟨exCaptured, .ref 0, .ref 5, .ref 6, [.ref 10, .ref 11, .ref 12],
    ⟨exCaptured ++ [⟨.inst, 1, [.ref 9, .atom 40]⟩, ⟨.inst, 2, [.ref 7, .ref 4]⟩,
      ⟨.set, 0, [.ref 8]⟩, ⟨.set, 0, [.ref 7]⟩, ⟨.set, 0, [.ref 8]⟩, ⟨.set, 0, []⟩],
      [(1, 7), (3, 8), (2, 9), (0, 10), (5, 11), (6, 12)]⟩,
    [.look 1 0, .look 3 1, .look 4 0, .write 5 []], 1, exCaptured_proper, by decide +kernel,
    .step (.root (i := 0) (by simp)) ⟨_, rfl, rfl, by decide⟩, by decide +kernel⟩

end examples

end Forecaster.Copying
