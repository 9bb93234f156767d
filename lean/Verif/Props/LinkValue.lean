import Verif.Model.LinkValue
import Verif.Props.Link

/-!
# C119: links as values

When two `AccountLink`s are equal, what sets of them hold, that equal links are interchangeable in
every program, and what the constructor accepts.
-/

set_option linter.unusedSectionVars false

namespace Forecaster.Link

open Forecaster

variable {O T Acc V I : Type} [DecidableEq O] [DecidableEq T] [DecidableEq Acc]

/-! ### Equality and hashes -/

/-- The links a program may hold: `AccountLink`s, and `LinkTuple`s before they are made into one. -/
def Value.IsLink : Value O T V → Prop
  | .link _ | .named _ _ => True
  | _ => False

theorem eq_links {x y : Value O T V} (hx : x.IsLink) (hy : y.IsLink) :
    eq x y = .ok (decide (x.key = y.key)) := by
  cases x <;> cases y <;> simp only [Value.IsLink] at hx hy <;> simp [eq, Value.key, eq_comm]

theorem hash_links {x : Value O T V} (hx : x.IsLink) (H : O × T → ℕ) (Ho : ℕ → ℕ) :
    hash H Ho x = match x.key with | some k => H k | none => 0 := by
  cases x <;> simp only [Value.IsLink] at hx <;> rfl

/-- **C119** (equality). Comparing links always answers, and they are equal exactly if they have the
same owner and the same token - whatever their default factories -, hence equality is reflexive,
symmetric and transitive; and equal links have equal hashes, whatever the hash of tuples is. -/
theorem C119_equality {x y : Value O T V} (hx : x.IsLink) (hy : y.IsLink) :
    ∃ b, eq x y = .ok b ∧ eq y x = .ok b ∧ (b = true ↔ x.key = y.key) ∧
      (b = true → ∀ H Ho, hash H Ho x = hash H Ho y) := by
  have h1 := eq_links hx hy
  have h2 := eq_links hy hx
  refine ⟨_, h1, ?_, by simp, ?_⟩
  · rw [h2]
    congr 1
    simp only [decide_eq_decide]
    exact eq_comm
  · intro h H Ho
    rw [hash_links hx, hash_links hy, of_decide_eq_true h]

/-- **C119** (what equality means). Two links are equal exactly if in every state of the owners they
give access to the same record. -/
theorem C119_same_record (l m : AccountLink O T V) :
    eq (.link l) (.link m) = .ok true ↔
      ∀ s : Store O T Acc V, record s l = record s m := by
  simp only [eq, Except.ok.injEq, decide_eq_true_eq, Prod.mk.injEq]
  constructor
  · rintro ⟨h1, h2⟩ s
    simp [record, h1, h2]
  · intro h
    have := h (putRecord (fun _ => []) l ⟨[], l.default⟩)
    simp only [record, get_put, and_self, if_true] at this
    by_contra hne
    rw [if_neg fun h => hne ⟨h.1, h.2⟩] at this
    cases this

/-- **C119** (other objects). Comparing an `AccountLink` with something that has no `owner` - `None`,
a string, even the tuple `(owner, token)` it was made from - raises `AttributeError`. -/
theorem C119_foreign_objects (l : AccountLink O T V) (o : O) (t : T) (n : ℕ) :
    eq (.link l) (.other n) = .error .attributeError ∧
    eq (.other n) (.link l) = .error .attributeError ∧
    eq (.link l) (.plain o t) = .error .attributeError ∧
    eq (.plain o t) (.link l) = .error .attributeError :=
  ⟨rfl, rfl, rfl, rfl⟩

/-! ### Sets -/

theorem contains_links (H : O × T → ℕ) (Ho : ℕ → ℕ) {x : Value O T V} (hx : x.IsLink)
    {s : List (Value O T V)} (hs : ∀ y ∈ s, y.IsLink) :
    contains H Ho x s = .ok (decide (x.key ∈ s.map Value.key)) := by
  induction s with
  | nil => rfl
  | cons e s ih =>
    have he := hs e List.mem_cons_self
    have ih := ih fun y hy => hs y (List.mem_cons_of_mem _ hy)
    obtain ⟨b, h1, -, h3, h4⟩ := C119_equality he hx
    unfold contains
    rw [h1, ih]
    by_cases hb : b = true
    · have hk := h3.1 hb
      subst hb
      rw [if_pos (h4 rfl H Ho), ok_bind, if_pos rfl]
      simp [hk]
    · have hk : ¬ e.key = x.key := fun h => hb (h3.2 h)
      have hb' : b = false := by simpa using hb
      subst hb'
      have : decide (x.key ∈ (e :: s).map Value.key) = decide (x.key ∈ s.map Value.key) := by
        simp only [List.map_cons, List.mem_cons, decide_eq_decide]
        exact ⟨fun h => h.resolve_left fun h => hk h.symm, .inr⟩
      rw [this]
      split <;> simp

/-- **C119** (sets). However many links are added to a set, in whatever order: adding never raises,
the set holds one link for each (owner, token) among them - never two that share a record -, and a link
is found in it exactly if one with its owner and token was added. -/
theorem C119_set (H : O × T → ℕ) (Ho : ℕ → ℕ) (xs : List (Value O T V))
    (hx : ∀ x ∈ xs, x.IsLink) :
    ∃ s, xs.foldlM (add H Ho) [] = .ok s ∧ (s.map Value.key).Nodup ∧ (∀ y ∈ s, y ∈ xs) ∧
      ∀ y : Value O T V, y.IsLink →
        contains H Ho y s = .ok (decide (y.key ∈ xs.map Value.key)) := by
  have gen : ∀ (xs s : List (Value O T V)), (∀ x ∈ xs, x.IsLink) → (∀ x ∈ s, x.IsLink) →
      (s.map Value.key).Nodup →
      ∃ s', xs.foldlM (add H Ho) s = .ok s' ∧ (s'.map Value.key).Nodup ∧
        (∀ y ∈ s', y ∈ s ∨ y ∈ xs) ∧
        ∀ k, k ∈ s'.map Value.key ↔ k ∈ s.map Value.key ∨ k ∈ xs.map Value.key := by
    intro xs
    induction xs with
    | nil => intro s _ _ hn; exact ⟨s, rfl, hn, fun y hy => .inl hy, fun k => by simp⟩
    | cons x xs ih =>
      intro s h1 h2 hn
      have hc := contains_links H Ho (h1 x List.mem_cons_self) h2
      rw [List.foldlM_cons]
      have hadd : add H Ho s x = .ok (if x.key ∈ s.map Value.key then s else s ++ [x]) := by
        unfold add
        rw [hc, ok_bind]
        simp only [decide_eq_true_eq]
      rw [hadd, ok_bind]
      by_cases hm : x.key ∈ s.map Value.key
      · rw [if_pos hm]
        obtain ⟨s', e1, e2, e3, e4⟩ := ih s (fun y hy => h1 y (List.mem_cons_of_mem _ hy)) h2 hn
        refine ⟨s', e1, e2, fun y hy => ?_, fun k => ?_⟩
        · exact (e3 y hy).imp id (List.mem_cons_of_mem _)
        · rw [e4, List.map_cons, List.mem_cons]
          constructor
          · rintro (h | h) <;> tauto
          · rintro (h | rfl | h)
            · exact .inl h
            · exact .inl hm
            · exact .inr h
      · rw [if_neg hm]
        obtain ⟨s', e1, e2, e3, e4⟩ := ih (s ++ [x]) (fun y hy => h1 y (List.mem_cons_of_mem _ hy))
          (fun y hy => by
            rcases List.mem_append.1 hy with h | h
            · exact h2 y h
            · rw [List.mem_singleton.1 h]; exact h1 x List.mem_cons_self)
          (by
            rw [List.map_append, List.nodup_append]
            refine ⟨hn, by simp, ?_⟩
            rintro a ha b hb rfl
            simp only [List.map_cons, List.map_nil, List.mem_singleton] at hb
            subst hb
            exact hm ha)
        refine ⟨s', e1, e2, fun y hy => ?_, fun k => ?_⟩
        · rcases e3 y hy with h | h
          · rcases List.mem_append.1 h with h | h
            · exact .inl h
            · exact .inr (by rw [List.mem_singleton.1 h]; exact List.mem_cons_self)
          · exact .inr (List.mem_cons_of_mem _ h)
        · rw [e4]
          simp only [List.map_append, List.mem_append, List.map_cons, List.map_nil,
            List.mem_cons]
          tauto
  obtain ⟨s, e1, e2, e3, e4⟩ := gen xs [] hx (by simp) (by simp)
  have e3 : ∀ y ∈ s, y ∈ xs := fun y hy => (e3 y hy).resolve_left (by simp)
  refine ⟨s, e1, e2, e3, fun y hy => ?_⟩
  rw [contains_links H Ho hy fun z hz => hx z (e3 z hz)]
  congr 1
  simp only [decide_eq_decide, e4]
  simp

/-! ### Interchangeable -/

/-- The same operation through an equal link; a constructor with the same default. -/
inductive Alike : Op O T Acc V → Op O T Acc V → Prop
  | create {l m} : eq (.link l) (.link m) = .ok true → l.default = m.default →
      Alike (.create l) (.create m)
  | unregister {l m} : eq (.link l) (.link m) = .ok true → Alike (.unregister l) (.unregister m)
  | setData {l m v} : eq (.link l) (.link m) = .ok true → Alike (.setData l v) (.setData m v)
  | link {l m a} : eq (.link l) (.link m) = .ok true → Alike (.link l a) (.link m a)
  | unlink {l m a} : eq (.link l) (.link m) = .ok true → Alike (.unlink l a) (.unlink m a)

theorem eq_parts {l m : AccountLink O T V} (h : eq (.link l) (.link m) = .ok true) :
    l.owner = m.owner ∧ l.token = m.token := by
  simpa [eq] using h

theorem step_alike (s : Store O T Acc V) {p q : Op O T Acc V} (h : Alike p q) :
    step s p = step s q := by
  have hr : ∀ {l m : AccountLink O T V}, eq (.link l) (.link m) = .ok true →
      record s l = record s m ∧ ∀ r, putRecord s l r = putRecord s m r := by
    intro l m h
    obtain ⟨h1, h2⟩ := eq_parts h
    exact ⟨by simp [record, h1, h2], fun r => by unfold putRecord; rw [h1, h2]⟩
  cases h with
  | @create l m h hd =>
    obtain ⟨h1, h2⟩ := hr h
    simp only [step, register, isRegistered, h1, h2, hd]
    rfl
  | @unregister l m h =>
    obtain ⟨h1, -⟩ := hr h
    obtain ⟨h3, h4⟩ := eq_parts h
    simp only [step, unregister, isRegistered, h1, h3, h4]
    rfl
  | @setData l m v h =>
    obtain ⟨h1, h2⟩ := hr h
    simp only [step, setData, h1, h2]
  | @link l m a h =>
    obtain ⟨h1, h2⟩ := hr h
    simp only [step, linkAccount, h1, h2]
  | @unlink l m a h =>
    obtain ⟨h1, h2⟩ := hr h
    simp only [step, unlinkAccount, h1, h2]

/-- **C119** (interchangeable). In every program of links any link may be replaced by an equal one:
every operation gives the same result or raises the same exception and all records end up the same.
(Only a constructor that creates the record must have the same default: `C25_default_used_once`.) -/
theorem C119_interchangeable (s : Store O T Acc V) {ps qs : List (Op O T Acc V)}
    (h : List.Forall₂ Alike ps qs) :
    run s ps = run s qs ∧
    ∀ {p q : Op O T Acc V}, Alike p q → step (run s ps) p = step (run s qs) q := by
  have : run s ps = run s qs := by
    induction h generalizing s with
    | nil => rfl
    | @cons p q ps qs hpq _ ih =>
      simp only [run, List.foldl_cons, step_alike s hpq]
      exact ih _
  exact ⟨this, fun hpq => by rw [this, step_alike _ hpq]⟩

/-! ### `is_linked` -/

/-- **C119** (`is_linked`). After any program `is_linked(account)` says whether the account has been
linked through a link with that owner and token and not been unlinked since, since the record was last
created; without a record it raises `AttributeError`. -/
theorem C119_is_linked (ops : List (Op O T Acc V)) (l : AccountLink O T V) (a : Acc) :
    isLinked (run (fun _ => []) ops) l a =
      match specRun l.owner l.token none ops with
      | none => .error .attributeError
      | some g => .ok (g.member a) := by
  rw [← C25_groups_are_independent_records]
  unfold isLinked observe
  have : record (run (fun _ => []) ops) l = Dict.get? (run (fun _ => []) ops l.owner) l.token := rfl
  rw [this]
  cases Dict.get? (run (fun _ => ([] : Dict T (Record Acc V))) ops l.owner) l.token <;> rfl

/-! ### The constructor -/

/-- **C119** (the constructor). It accepts an `AccountLink`, whose owner, token and - unless another
one is given - default it takes over, a `LinkTuple` and every sequence of two objects; the new link is
then registered with its owner, every record that existed is as before, and a new one has no members
and the default. It refuses anything else, and registers nothing: sequences of another length and other
objects with `TypeError`, an owner without `data` with `AttributeError` and an unhashable token with
`TypeError`. -/
theorem C119_constructor (E : Objects I O T) (empty : V) (s : Store O T Acc V)
    (factory : Option V) :
    (∀ l : AccountLink O T V, ∃ l' s', new E empty s (.link l) factory = .ok (l', s') ∧
      eq (.link l') (.link l) = .ok true ∧ l'.default = factory.getD l.default ∧
      s' = register s l') ∧
    (∀ i j o t, E.asOwner i = some o → E.asToken j = some t →
      new E empty s (.named i j) factory =
        .ok (⟨o, t, factory.getD empty⟩, register s ⟨o, t, factory.getD empty⟩)) ∧
    (∀ i j, new E empty s (.sequence [i, j]) factory = new E empty s (.named i j) factory) ∧
    (∀ items : List I, items.length ≠ 2 →
      new E empty s (.sequence items) factory = .error .typeError) ∧
    new E empty s .other factory = .error .typeError ∧
    (∀ i j, E.asOwner i = none → new E empty s (.named i j) factory = .error .attributeError) ∧
    (∀ i j o, E.asOwner i = some o → E.asToken j = none →
      new E empty s (.named i j) factory = .error .typeError) ∧
    (∀ arg l s', new E empty s arg factory = .ok (l, s') →
      isRegistered s' l = true ∧
      (∀ m, isRegistered s m = true → record s' m = record s m) ∧
      (isRegistered s l = false → getData s' l = some l.default ∧ getGroup s' l = some [])) := by
  have hreg : ∀ l : AccountLink O T V, isRegistered (register s l) l = true ∧
      (∀ m, isRegistered s m = true → record (register s l) m = record s m) ∧
      (isRegistered s l = false →
        getData (register s l) l = some l.default ∧ getGroup (register s l) l = some []) := by
    intro l
    refine ⟨?_, fun m hm => ?_, (C25_default_used_once s l).2⟩
    · unfold register
      by_cases h : isRegistered s l = true
      · rw [if_pos h]; exact h
      · rw [if_neg h]; simp [isRegistered, record, get_put]
    · unfold register
      by_cases h : isRegistered s l = true
      · rw [if_pos h]
      · rw [if_neg h]
        simp only [record, get_put]
        rw [if_neg]
        rintro ⟨h1, h2⟩
        apply h
        simpa [isRegistered, record, h1, h2] using hm
  refine ⟨fun l => ⟨_, _, rfl, by simp [eq], rfl, rfl⟩, fun i j o t h1 h2 => ?_, fun i j => rfl, ?_, rfl,
    fun i j h => ?_, fun i j o h1 h2 => ?_, ?_⟩
  · simp [new, newFrom, h1, h2]
  · intro items h
    match items with
    | [] => rfl
    | [_] => rfl
    | [_, _] => simp at h
    | _ :: _ :: _ :: _ => rfl
  · simp [new, newFrom, h]
  · simp [new, newFrom, h1, h2]
  · have hfrom : ∀ i j v l s', newFrom E s i j v = .ok (l, s') → s' = register s l := by
      intro i j v l s' h
      unfold newFrom at h
      split at h
      · cases h
      · split at h
        · cases h
        · cases h; rfl
    intro arg l s' h
    have : s' = register s l := by
      match arg with
      | .link m => cases h; rfl
      | .named i j => exact hfrom _ _ _ _ _ h
      | .sequence [i, j] => exact hfrom _ _ _ _ _ h
      | .sequence [] => cases h
      | .sequence [_] => cases h
      | .sequence (_ :: _ :: _ :: _) => cases h
      | .other => cases h
    rw [this]
    exact hreg l

section examples

/-- Two links for the first person's RRSPs with different defaults, one for the second person's. -/
def exLinks : List (Value ℕ String ℕ) :=
  [.link ⟨0, "RRSP", 5⟩, .link ⟨1, "RRSP", 5⟩, .named 0 "RRSP", .link ⟨0, "RRSP", 7⟩]

example : (∀ x ∈ exLinks, x.IsLink) := by simp [exLinks, Value.IsLink]

/-- Even if all hashes collide, the set has two elements. -/
example : (exLinks.foldlM (add (fun _ => 0) fun _ => 0) []).map List.length = .ok 2 ∧
    (do let s ← exLinks.foldlM (add (fun _ => 0) fun _ => 0) []
        contains (fun _ => 0) (fun _ => 0) (.named 1 "RRSP") s) = .ok true ∧
    (do let s ← exLinks.foldlM (add (fun _ => 0) fun _ => 0) []
        contains (fun _ => 0) (fun _ => 0) (.link ⟨1, "TFSA", 5⟩) s) = .ok false := by
  decide +kernel

/-- Looking for the plain tuple in such a set raises. -/
example : (do let s ← exLinks.foldlM (add (fun _ => 0) fun _ => 0) []
              contains (fun _ => 0) (fun _ => 0) (.plain 1 "RRSP") s) = .error .attributeError := by
  decide +kernel

/-- Linked through one link, unlinked through another. -/
example : isLinked (run (fun _ => []) [.create ⟨0, "RRSP", 5⟩, .link ⟨0, "RRSP", 5⟩ 3])
      (⟨0, "RRSP", 7⟩ : AccountLink ℕ String ℕ) 3 = .ok true ∧
    isLinked (run (fun _ => []) [.create ⟨0, "RRSP", 5⟩, .link ⟨0, "RRSP", 5⟩ 3,
      .unlink ⟨0, "RRSP", 7⟩ 3]) (⟨0, "RRSP", 5⟩ : AccountLink ℕ String ℕ) 3 = .ok false := by
  decide +kernel

/-- A string of two characters is a sequence of two objects: `AccountLink("ab")` fails because the
string `"a"` has no `data`. -/
example : (new (⟨fun _ => none, some⟩ : Objects Char ℕ Char) 0
      (fun _ => ([] : Dict Char (Record ℕ ℕ))) (.sequence ['a', 'b']) none).map (fun r => r.1.default) =
    .error .attributeError := by
  decide +kernel

end examples

end Forecaster.Link
