import Verif.Model.TxDict
import Verif.Lemmas.Dict
import Mathlib.Data.Rat.Floor
import Mathlib.Algebra.Order.Ring.Rat

/-!
# C86: a sub-forecast's record of transactions

Specification: `ideal*` is an ordinary `defaultdict` whose keys are the objects themselves: hashable
ones compared by equality, unhashable ones by identity.
-/

namespace Forecaster.TxDict

open Forecaster

variable {H U V : Type} [DecidableEq H] [DecidableEq U]

/-! ### Specification -/

/-- An ordinary `defaultdict` with any objects as keys. -/
def idealStep (dflt : V) (d : Dict (Obj H U) V) : Op H U V → Option V × Dict (Obj H U) V
  | .get k => (some ((Dict.get? d k).getD dflt), Dict.set d k ((Dict.get? d k).getD dflt))
  | .set k v => (none, Dict.set d k v)
  | .alter k f => (none, Dict.set d k (f ((Dict.get? d k).getD dflt)))
  | .clear => (none, [])

/-- A program on it. -/
def idealRun (dflt : V) : Dict (Obj H U) V → List (Op H U V) → List (Option V) × Dict (Obj H U) V
  | d, [] => ([], d)
  | d, op :: ops =>
    let r := idealStep dflt d op
    let rs := idealRun dflt r.2 ops
    (r.1 :: rs.1, rs.2)

/-- The key of an operation. -/
def Op.key : Op H U V → Option (Obj H U)
  | .get k | .set k _ | .alter k _ => some k
  | .clear => none

/-- Every number that is used as a key differs from the `id` of every unhashable key. -/
def NoClash (idOf : U → H) (ops : List (Op H U V)) : Prop :=
  ∀ op ∈ ops, ∀ op' ∈ ops, ∀ h u, op.key = some (.hashable h) → op'.key = some (.unhashable u) →
    h ≠ idOf u

/-! ### Proofs -/

/-- Keys allowed by a predicate on each kind. -/
def Allowed (hs : H → Prop) (us : U → Prop) : Obj H U → Prop
  | .hashable h => hs h
  | .unhashable u => us u

/-- The relation between a `TransactionDict` and the ideal one. -/
structure Rel (idOf : U → H) (hs : H → Prop) (us : U → Prop) (t : TD H U V)
    (d : Dict (Obj H U) V) : Prop where
  base : t.base = d.map fun kv => (under idOf kv.1, kv.2)
  ok : ∀ k ∈ Dict.keys d, Allowed hs us k
  known : ∀ u, .unhashable u ∈ Dict.keys d → Dict.get? t.unhashablekeys (idOf u) = some u
  ids : ∀ h u, Dict.get? t.unhashablekeys h = some u → h = idOf u ∧ us u

variable {idOf : U → H} {hs : H → Prop} {us : U → Prop}

theorem under_inj (hid : Function.Injective idOf) (hc : ∀ h u, hs h → us u → h ≠ idOf u)
    {k k' : Obj H U} (hk : Allowed hs us k) (hk' : Allowed hs us k')
    (h : under idOf k = under idOf k') : k = k' := by
  cases k <;> cases k' <;> simp only [under] at h
  · rw [h]
  · exact absurd h (hc _ _ hk hk')
  · exact absurd h.symm (hc _ _ hk' hk)
  · rw [hid h]

theorem get?_map (hid : Function.Injective idOf) (hc : ∀ h u, hs h → us u → h ≠ idOf u)
    (d : Dict (Obj H U) V) (hd : ∀ k ∈ Dict.keys d, Allowed hs us k) (k : Obj H U)
    (hk : Allowed hs us k) :
    Dict.get? (d.map fun kv => (under idOf kv.1, kv.2)) (under idOf k) = Dict.get? d k := by
  induction d with
  | nil => rfl
  | cons a d ih =>
    have ha : Allowed hs us a.1 := hd a.1 List.mem_cons_self
    have ih := ih fun q hq => hd q (List.mem_cons_of_mem _ hq)
    simp only [List.map_cons, Dict.get?_cons]
    by_cases h : a.1 = k
    · rw [if_pos h, if_pos (by rw [h])]
    · rw [if_neg h, if_neg fun e => h (under_inj hid hc ha hk e), ih]

theorem set_map (hid : Function.Injective idOf) (hc : ∀ h u, hs h → us u → h ≠ idOf u)
    (d : Dict (Obj H U) V) (hd : ∀ k ∈ Dict.keys d, Allowed hs us k) (k : Obj H U)
    (hk : Allowed hs us k) (v : V) :
    Dict.set (d.map fun kv => (under idOf kv.1, kv.2)) (under idOf k) v
      = (Dict.set d k v).map fun kv => (under idOf kv.1, kv.2) := by
  induction d with
  | nil => rfl
  | cons a d ih =>
    have ha : Allowed hs us a.1 := hd a.1 List.mem_cons_self
    have ih := ih fun q hq => hd q (List.mem_cons_of_mem _ hq)
    obtain ⟨a1, a2⟩ := a
    simp only [List.map_cons, Dict.set]
    by_cases h : a1 = k
    · rw [if_pos h, if_pos (by rw [h])]; rfl
    · rw [if_neg h, if_neg fun e => h (under_inj hid hc ha hk e), ih]; rfl

theorem remember_base (t : TD H U V) (k : Obj H U) : (remember idOf t k).base = t.base := by
  cases k with
  | hashable h => rfl
  | unhashable u =>
    simp only [remember]
    cases Dict.get? t.unhashablekeys (idOf u) <;> rfl

theorem Rel.remember {t : TD H U V} {d : Dict (Obj H U) V} (r : Rel idOf hs us t d)
    (hid : Function.Injective idOf) {k : Obj H U} (hk : Allowed hs us k) :
    Rel idOf hs us (remember idOf t k) d ∧
    (∀ u, k = .unhashable u →
      Dict.get? (TxDict.remember idOf t k).unhashablekeys (idOf u) = some u) := by
  cases k with
  | hashable h => exact ⟨r, fun u hu => by cases hu⟩
  | unhashable u =>
    simp only [TxDict.remember]
    cases hg : Dict.get? t.unhashablekeys (idOf u) with
    | some u' =>
      have : u' = u := (hid (r.ids _ _ hg).1).symm
      subst this
      refine ⟨r, fun w hw => ?_⟩
      cases hw
      exact hg
    | none =>
      refine ⟨⟨r.base, r.ok, ?_, ?_⟩, fun w hw => ?_⟩
      · intro w hw
        have h1 := r.known w hw
        rw [Dict.get?_set_ne]
        · exact h1
        · intro e
          rw [← e, hg] at h1
          cases h1
      · intro h w hw
        simp only [Dict.get?_set] at hw
        split at hw
        · rename_i e
          cases hw
          exact ⟨e.symm, hk⟩
        · exact r.ids h w hw
      · cases hw
        exact Dict.get?_set_self _ _ _

theorem Rel.put {t : TD H U V} {d : Dict (Obj H U) V} (r : Rel idOf hs us t d)
    (hid : Function.Injective idOf) (hc : ∀ h u, hs h → us u → h ≠ idOf u) {k : Obj H U}
    (hk : Allowed hs us k) (hr : ∀ u, k = .unhashable u →
      Dict.get? t.unhashablekeys (idOf u) = some u) (v : V) :
    Rel idOf hs us { t with base := Dict.set t.base (under idOf k) v } (Dict.set d k v) := by
  refine ⟨?_, ?_, ?_, r.ids⟩
  · show Dict.set t.base (under idOf k) v = _
    rw [r.base, set_map hid hc d r.ok k hk]
  · intro q hq
    rcases Dict.mem_keys_set.1 hq with h | h
    · rw [h]; exact hk
    · exact r.ok q h
  · intro u hu
    rcases Dict.mem_keys_set.1 hu with h | h
    · exact hr u h.symm
    · exact r.known u h

theorem set_same {κ ν : Type} [DecidableEq κ] (d : Dict κ ν) (k : κ) (v : ν)
    (h : Dict.get? d k = some v) : Dict.set d k v = d := by
  induction d with
  | nil => cases h
  | cons a d ih =>
    obtain ⟨a1, a2⟩ := a
    simp only [Dict.get?_cons] at h
    simp only [Dict.set]
    by_cases e : a1 = k
    · rw [if_pos e] at h ⊢; cases h; rfl
    · rw [if_neg e] at h ⊢; rw [ih h]

theorem Rel.getItem {t : TD H U V} {d : Dict (Obj H U) V} (r : Rel idOf hs us t d)
    (hid : Function.Injective idOf) (hc : ∀ h u, hs h → us u → h ≠ idOf u) {k : Obj H U}
    (hk : Allowed hs us k) (dflt : V) :
    (TxDict.getItem idOf dflt t k).1 = (Dict.get? d k).getD dflt ∧
    Rel idOf hs us (TxDict.getItem idOf dflt t k).2 (Dict.set d k ((Dict.get? d k).getD dflt)) ∧
    (∀ u, k = .unhashable u →
      Dict.get? (TxDict.getItem idOf dflt t k).2.unhashablekeys (idOf u) = some u) := by
  obtain ⟨r1, r2⟩ := r.remember hid hk
  have hg : Dict.get? (TxDict.remember idOf t k).base (under idOf k) = Dict.get? d k := by
    rw [r1.base, get?_map hid hc d r.ok k hk]
  simp only [TxDict.getItem, baseGet, hg]
  cases h : Dict.get? d k with
  | some v =>
    simp only [Option.getD_some, true_and]
    rw [set_same d k v h]
    exact ⟨r1, r2⟩
  | none =>
    simp only [Option.getD_none, true_and]
    exact ⟨r1.put hid hc hk r2 dflt, r2⟩

theorem Rel.step {t : TD H U V} {d : Dict (Obj H U) V} (r : Rel idOf hs us t d)
    (hid : Function.Injective idOf) (hc : ∀ h u, hs h → us u → h ≠ idOf u) (dflt : V)
    (op : Op H U V) (hop : ∀ k, op.key = some k → Allowed hs us k) :
    (TxDict.step idOf dflt t op).1 = (idealStep dflt d op).1 ∧
    Rel idOf hs us (TxDict.step idOf dflt t op).2 (idealStep dflt d op).2 := by
  cases op with
  | get k =>
    obtain ⟨g1, g2, _⟩ := r.getItem hid hc (hop k rfl) dflt
    simp only [TxDict.step, idealStep, g1, true_and]
    exact g2
  | set k v =>
    obtain ⟨r1, r2⟩ := r.remember hid (hop k rfl)
    exact ⟨rfl, r1.put hid hc (hop k rfl) r2 v⟩
  | alter k f =>
    obtain ⟨g1, g2, g3⟩ := r.getItem hid hc (hop k rfl) dflt
    refine ⟨rfl, ?_⟩
    have := g2.put hid hc (hop k rfl) g3 (f (TxDict.getItem idOf dflt t k).1)
    simp only [TxDict.step, alter, idealStep]
    rw [g1] at this ⊢
    have e : ∀ (d : Dict (Obj H U) V) (a b : V), Dict.set (Dict.set d k a) k b = Dict.set d k b := by
      intro d a b
      induction d with
      | nil => simp [Dict.set]
      | cons x d ih =>
        obtain ⟨x1, x2⟩ := x
        by_cases hx : x1 = k
        · simp [Dict.set, hx]
        · simp [Dict.set, hx, ih]
    rw [e] at this
    exact this
  | clear =>
    exact ⟨rfl, rfl, fun k h => (by cases h), fun u h => (by cases h), r.ids⟩

theorem Rel.run (hid : Function.Injective idOf) (hc : ∀ h u, hs h → us u → h ≠ idOf u) (dflt : V)
    (ops : List (Op H U V)) : ∀ {t : TD H U V} {d : Dict (Obj H U) V}, Rel idOf hs us t d →
    (∀ op ∈ ops, ∀ k, op.key = some k → Allowed hs us k) →
    (TxDict.run idOf dflt t ops).1 = (idealRun dflt d ops).1 ∧
    Rel idOf hs us (TxDict.run idOf dflt t ops).2 (idealRun dflt d ops).2 := by
  induction ops with
  | nil => intro t d r _; exact ⟨rfl, r⟩
  | cons op ops ih =>
    intro t d r hops
    obtain ⟨s1, s2⟩ := r.step hid hc dflt op (hops op List.mem_cons_self)
    obtain ⟨i1, i2⟩ := ih s2 fun op' h => hops op' (List.mem_cons_of_mem _ h)
    simp only [TxDict.run, idealRun, s1, i1, true_and]
    exact i2

theorem Rel.iter {t : TD H U V} {d : Dict (Obj H U) V} (r : Rel idOf hs us t d)
    (hc : ∀ h u, hs h → us u → h ≠ idOf u) : TxDict.iter t = Dict.keys d := by
  simp only [TxDict.iter, r.base, Dict.keys, List.map_map]
  refine List.map_congr_left fun a ha => ?_
  have hk : a.1 ∈ Dict.keys d := List.mem_map_of_mem ha
  simp only [Function.comp]
  cases h : a.1 with
  | hashable x =>
    simp only [under, shown]
    cases hg : Dict.get? t.unhashablekeys x with
    | none => rfl
    | some u =>
      obtain ⟨e, hu⟩ := r.ids x u hg
      have := r.ok _ hk
      rw [h] at this
      exact absurd e (hc x u this hu)
  | unhashable u =>
    simp only [under, shown]
    rw [r.known u (h ▸ hk)]

theorem run_rel (idOf : U → H) (hid : Function.Injective idOf) (dflt : V) (ops : List (Op H U V))
    (hc : NoClash idOf ops) :
    let hs := fun h => ∃ op ∈ ops, op.key = some (.hashable h)
    let us := fun u => ∃ op ∈ ops, op.key = some (.unhashable u)
    (∀ h u, hs h → us u → h ≠ idOf u) ∧
    (TxDict.run idOf dflt new ops).1 = (idealRun dflt [] ops).1 ∧
    Rel idOf hs us (TxDict.run idOf dflt new ops).2 (idealRun dflt [] ops).2 := by
  intro hs us
  have hc' : ∀ h u, hs h → us u → h ≠ idOf u := by
    rintro h u ⟨op, ho, e⟩ ⟨op', ho', e'⟩
    exact hc op ho op' ho' h u e e'
  refine ⟨hc', Rel.run hid hc' dflt ops (t := new) (d := []) ?_ ?_⟩
  · exact ⟨rfl, fun k h => (by cases h), fun u h => (by cases h), fun h u e => (by cases e)⟩
  · intro op ho k hk
    cases k with
    | hashable h => exact ⟨op, ho, hk⟩
    | unhashable u => exact ⟨op, ho, hk⟩

/-- **C86** (a dict keyed by the objects themselves). Whatever is looked up, stored, changed in place
or cleared, a `TransactionDict` returns what a `defaultdict` keyed by the objects themselves would
return (unhashable ones told apart by identity), and iterating over it yields the same keys, the
objects and not their `id`s, in the order in which they were first used; provided no hashable key is
equal to the `id` of an unhashable one. -/
theorem C86_keyed_by_identity (idOf : U → H) (hid : Function.Injective idOf) (dflt : V)
    (ops : List (Op H U V)) (hc : NoClash idOf ops) :
    (run idOf dflt new ops).1 = (idealRun dflt [] ops).1 ∧
    iter (run idOf dflt new ops).2 = Dict.keys (idealRun dflt [] ops).2 := by
  obtain ⟨h1, h2, h3⟩ := run_rel idOf hid dflt ops hc
  exact ⟨h2, h3.iter h1⟩

/-- **C86** (items). `items()`, which is not overridden, lists the same values in the same order, but
with `id`s in place of unhashable keys. -/
theorem C86_items_show_ids (idOf : U → H) (hid : Function.Injective idOf) (dflt : V)
    (ops : List (Op H U V)) (hc : NoClash idOf ops) :
    items (run idOf dflt new ops).2 = (idealRun dflt [] ops).2.map fun
      | (.hashable h, v) => (h, v)
      | (.unhashable u, v) => (idOf u, v) := by
  obtain ⟨_, _, h3⟩ := run_rel idOf hid dflt ops hc
  show (run idOf dflt new ops).2.base = _
  rw [h3.base]
  refine List.map_congr_left fun a _ => ?_
  obtain ⟨k, v⟩ := a
  cases k <;> rfl

theorem remember_known (t : TD H U V) (k : Obj H U) (u : U)
    (h : u ∈ Dict.vals t.unhashablekeys) : u ∈ Dict.vals (remember idOf t k).unhashablekeys := by
  cases k with
  | hashable _ => exact h
  | unhashable w =>
    simp only [remember]
    cases hg : Dict.get? t.unhashablekeys (idOf w) with
    | some _ => exact h
    | none =>
      simp only
      rw [Dict.set_of_not_mem _ (Dict.get?_eq_none.1 hg)]
      simp only [Dict.vals, List.map_append, List.mem_append]
      exact .inl h

theorem step_known (dflt : V) (t : TD H U V) (op : Op H U V) (u : U)
    (h : u ∈ Dict.vals t.unhashablekeys) :
    u ∈ Dict.vals (step idOf dflt t op).2.unhashablekeys := by
  have get : ∀ k, u ∈ Dict.vals (getItem idOf dflt t k).2.unhashablekeys := by
    intro k
    have := remember_known (idOf := idOf) t k u h
    simp only [getItem, baseGet]
    cases Dict.get? (remember idOf t k).base (under idOf k) <;> exact this
  cases op with
  | get k => exact get k
  | set k v => exact remember_known t k u h
  | alter k f => exact get k
  | clear => exact h

theorem run_known (dflt : V) (ops : List (Op H U V)) : ∀ (t : TD H U V) (u : U),
    u ∈ Dict.vals t.unhashablekeys → u ∈ Dict.vals (run idOf dflt t ops).2.unhashablekeys := by
  induction ops with
  | nil => intro t u h; exact h
  | cons op ops ih => intro t u h; exact ih _ u (step_known dflt t op u h)

/-- **C86** (keys stay alive). Every unhashable object that was ever used as a key is referred to by
the dict for good, also after `clear()`: so its `id` cannot be given to another object, which is what
`C86_keyed_by_identity` takes for granted. -/
theorem C86_keys_stay_alive (idOf : U → H) (hid : Function.Injective idOf) (dflt : V)
    (before after : List (Op H U V)) (op : Op H U V) (u : U) (hop : op.key = some (.unhashable u))
    (hc : NoClash idOf (before ++ op :: after)) :
    u ∈ Dict.vals (run idOf dflt new (before ++ op :: after)).2.unhashablekeys := by
  have split : ∀ (l m : List (Op H U V)) (t : TD H U V),
      (run idOf dflt t (l ++ m)).2 = (run idOf dflt (run idOf dflt t l).2 m).2 := by
    intro l m
    induction l with
    | nil => intro t; rfl
    | cons a l ih => intro t; exact ih _
  rw [split]
  refine run_known dflt after _ u ?_
  have hc' : NoClash idOf (before ++ [op]) := by
    intro a ha b hb
    refine hc a ?_ b ?_
    · rcases List.mem_append.1 ha with h | h
      · exact List.mem_append_left _ h
      · rw [List.mem_singleton.1 h]; simp
    · rcases List.mem_append.1 hb with h | h
      · exact List.mem_append_left _ h
      · rw [List.mem_singleton.1 h]; simp
  obtain ⟨_, _, r⟩ := run_rel idOf hid dflt (before ++ [op]) hc'
  have e : (run idOf dflt new (before ++ [op])).2
      = (step idOf dflt (run idOf dflt new before).2 op).2 := by rw [split]; rfl
  rw [e] at r
  have hmem : Obj.unhashable u ∈ Dict.keys (idealRun dflt [] (before ++ [op])).2 := by
    have : (idealRun dflt ([] : Dict (Obj H U) V) (before ++ [op])).2
        = (idealStep dflt (idealRun dflt [] before).2 op).2 := by
      have sp : ∀ (l m : List (Op H U V)) (t : Dict (Obj H U) V),
          (idealRun dflt t (l ++ m)).2 = (idealRun dflt (idealRun dflt t l).2 m).2 := by
        intro l m
        induction l with
        | nil => intro t; rfl
        | cons a l ih => intro t; exact ih _
      rw [sp]; rfl
    rw [this]
    cases op with
    | clear => cases hop
    | get k => cases hop; exact Dict.mem_keys_set.2 (.inl rfl)
    | set k v => cases hop; exact Dict.mem_keys_set.2 (.inl rfl)
    | alter k f => cases hop; exact Dict.mem_keys_set.2 (.inl rfl)
  have := r.known u hmem
  exact List.mem_map.2 ⟨_, Dict.mem_of_get? this, rfl⟩

/-- **C86** (the rest of the interface, against the documentation: "calling code does not need to use
the id"). `in` and `del` raise TypeError for an unhashable key, whether it is there or not; and
`keys()` raises TypeError as soon as there are two keys. -/
theorem C86_rest_of_interface_refuted (t : TD H U V) (u : U) (k k' : Obj H U) (ks : List (Obj H U))
    (h : iter t = k :: k' :: ks) :
    contains t (.unhashable u) = .error .typeError ∧
    delItem t (.unhashable u) = .error .typeError ∧ keys t = .error .typeError := by
  refine ⟨rfl, rfl, ?_⟩
  simp only [keys, h]

theorem idealRun_wf (dflt : V) (ops : List (Op H U V)) : ∀ (d : Dict (Obj H U) V), Dict.WF d →
    Dict.WF (idealRun dflt d ops).2 := by
  induction ops with
  | nil => intro d h; exact h
  | cons op ops ih =>
    intro d h
    refine ih _ ?_
    cases op with
    | get k => exact Dict.wf_set h _ _
    | set k v => exact Dict.wf_set h _ _
    | alter k f => exact Dict.wf_set h _ _
    | clear => exact Dict.wf_nil

theorem del_map (hid : Function.Injective idOf) (hc : ∀ h u, hs h → us u → h ≠ idOf u)
    (d : Dict (Obj H U) V) (hd : ∀ k ∈ Dict.keys d, Allowed hs us k) (k : Obj H U)
    (hk : Allowed hs us k) :
    Dict.del (d.map fun kv => (under idOf kv.1, kv.2)) (under idOf k)
      = (Dict.del d k).map fun kv => (under idOf kv.1, kv.2) := by
  induction d with
  | nil => rfl
  | cons a d ih =>
    have ha : Allowed hs us a.1 := hd a.1 List.mem_cons_self
    have ih := ih fun q hq => hd q (List.mem_cons_of_mem _ hq)
    obtain ⟨a1, a2⟩ := a
    simp only [List.map_cons, Dict.del]
    by_cases h : a1 = k
    · rw [if_pos h, if_pos (by rw [h])]
    · rw [if_neg h, if_neg fun e => h (under_inj hid hc ha hk e), ih]; rfl

theorem Rel.del {t : TD H U V} {d : Dict (Obj H U) V} (r : Rel idOf hs us t d)
    (hid : Function.Injective idOf) (hc : ∀ h u, hs h → us u → h ≠ idOf u) {k : Obj H U}
    (hk : Allowed hs us k) :
    Rel idOf hs us { t with base := Dict.del t.base (under idOf k) } (Dict.del d k) := by
  have sub : ∀ q, q ∈ Dict.keys (Dict.del d k) → q ∈ Dict.keys d := fun q hq =>
    (List.Sublist.map Prod.fst (Dict.del_sublist d k)).subset hq
  refine ⟨?_, fun q hq => r.ok q (sub q hq), fun u hu => r.known u (sub _ hu), r.ids⟩
  show Dict.del t.base (under idOf k) = _
  rw [r.base, del_map hid hc d r.ok k hk]

/-- **C86** (the rest of the interface, for hashable keys). `in` tells whether the key is among those
that iteration yields; `del` of a key that is not raises KeyError, and of one that is removes it and
nothing else: the other keys keep their order and their values, and a later look-up of the deleted one
finds the default; and `keys()` of a dict with at most one key yields what iteration yields. -/
theorem C86_hashable_interface (idOf : U → H) (hid : Function.Injective idOf) (dflt : V)
    (ops : List (Op H U V)) (hc : NoClash idOf ops) (h : H)
    (hh : ∀ op ∈ ops, ∀ u, op.key = some (.unhashable u) → h ≠ idOf u) :
    let t := (run idOf dflt new ops).2
    contains t (.hashable h) = .ok (decide (.hashable h ∈ iter t)) ∧
    (.hashable h ∉ iter t → delItem t (.hashable h) = .error .keyError) ∧
    (.hashable h ∈ iter t → ∃ t', delItem t (.hashable h) = .ok t' ∧
      iter t' = (iter t).filter (fun k => decide (k ≠ .hashable h)) ∧
      (∀ k ∈ iter t', (getItem idOf dflt t' k).1 = (getItem idOf dflt t k).1) ∧
      (getItem idOf dflt t' (.hashable h)).1 = dflt) ∧
    ((iter t).length ≤ 1 → keys t = .ok (iter t)) := by
  intro t
  -- the relation with `h` among the allowed keys
  have hc' : NoClash idOf (ops ++ [.get (.hashable h)]) := by
    intro a ha b hb h' u e e'
    rcases List.mem_append.1 hb with hb | hb
    · rcases List.mem_append.1 ha with ha | ha
      · exact hc a ha b hb h' u e e'
      · rw [List.mem_singleton.1 ha] at e; cases e
        exact hh b hb u e'
    · rw [List.mem_singleton.1 hb] at e'; cases e'
  let hs : H → Prop := fun x => ∃ op ∈ ops ++ [.get (.hashable h)], (op : Op H U V).key = some (.hashable x)
  let us : U → Prop := fun x => ∃ op ∈ ops ++ [.get (.hashable h)], (op : Op H U V).key = some (.unhashable x)
  have cl : ∀ x u, hs x → us u → x ≠ idOf u := by
    rintro x u ⟨op, ho, e⟩ ⟨op', ho', e'⟩
    exact hc' op ho op' ho' x u e e'
  have r : Rel idOf hs us t (idealRun dflt [] ops).2 :=
    (Rel.run hid cl dflt ops (t := new) (d := [])
      ⟨rfl, fun k h => (by cases h), fun u h => (by cases h), fun h u e => (by cases e)⟩
      (by
        intro op ho k hk
        cases k with
        | hashable x => exact ⟨op, List.mem_append_left _ ho, hk⟩
        | unhashable u => exact ⟨op, List.mem_append_left _ ho, hk⟩)).2
  have wf : Dict.WF (idealRun dflt ([] : Dict (Obj H U) V) ops).2 := idealRun_wf dflt ops [] Dict.wf_nil
  generalize (idealRun dflt ([] : Dict (Obj H U) V) ops).2 = d at r wf
  have hk : Allowed hs us (.hashable h : Obj H U) := ⟨.get (.hashable h), by simp, rfl⟩
  have hg : Dict.get? t.base h = Dict.get? d (.hashable h) := by
    rw [r.base]; exact get?_map hid cl d r.ok (.hashable h) hk
  have hi : iter t = Dict.keys d := r.iter cl
  refine ⟨?_, ?_, ?_, ?_⟩
  · simp only [contains, hg, hi]
    congr 1
    rw [Bool.eq_iff_iff, decide_eq_true_iff]
    exact Dict.get?_isSome
  · intro hn
    rw [hi] at hn
    simp only [delItem, hg, Dict.get?_eq_none.2 hn]
  · intro hm
    rw [hi] at hm
    obtain ⟨v, hv⟩ := Option.isSome_iff_exists.1 (Dict.get?_isSome.2 hm)
    have r' := r.del hid cl hk
    have hi' := r'.iter cl
    have vals : ∀ k, k ≠ .hashable h → Allowed hs us k →
        (getItem idOf dflt { t with base := Dict.del t.base (under idOf (.hashable h)) } k).1
          = (getItem idOf dflt t k).1 := by
      intro k hne hal
      rw [(r'.getItem hid cl hal dflt).1, (r.getItem hid cl hal dflt).1, Dict.get?_del wf,
        if_neg hne.symm]
    refine ⟨{ t with base := Dict.del t.base (under idOf (.hashable h)) }, ?_, ?_, ?_, ?_⟩
    · simp only [delItem, hg, hv]; rfl
    · rw [hi, hi']
      clear hi hi' vals r' hg r hm hv
      induction d with
      | nil => rfl
      | cons a d ih =>
        obtain ⟨a1, a2⟩ := a
        rw [Dict.wf_cons] at wf
        simp only [Dict.del]
        by_cases e : a1 = .hashable h
        · subst e
          have : ∀ k ∈ Dict.keys d, k ≠ Obj.hashable h := fun k hk e => wf.1 (e ▸ hk)
          simp only [if_true, Dict.keys, List.map_cons, List.filter_cons, ne_eq, not_true_eq_false,
            decide_false, Bool.false_eq_true, if_false]
          exact (List.filter_eq_self.2 fun k hk => by simpa using this k hk).symm
        · rw [if_neg e]
          simp only [Dict.keys, List.map_cons, List.filter_cons, ne_eq, e, not_false_eq_true,
            decide_true, if_true]
          congr 1
          exact ih wf.2
    · intro k hkm
      rw [hi'] at hkm
      refine vals k ?_ (r'.ok k hkm)
      rintro rfl
      have := Dict.get?_isSome.2 hkm
      rw [Dict.get?_del wf, if_pos rfl] at this
      cases this
    · rw [(r'.getItem hid cl hk dflt).1, Dict.get?_del wf, if_pos rfl]; rfl
  · intro hl
    simp only [keys]
    match hx : iter t with
    | [] => rfl
    | [k] => rfl
    | _ :: _ :: _ => rw [hx] at hl; simp at hl

/-- The objects of the examples: two dicts (false, true) at 1000 and 1001; hashable keys are numbers,
0 standing for `None`. -/
def exId (b : Bool) : ℕ := if b then 1001 else 1000

/-- A program: None, two dicts, None again, and a look-up. -/
def exOps : List (Op ℕ Bool ℕ) :=
  [.alter (.hashable 0) (· + 5), .alter (.unhashable true) (· + 1), .alter (.unhashable false) (· + 2),
    .alter (.hashable 0) (· + 5), .alter (.unhashable true) (· + 1), .get (.unhashable true)]

/-- C86: the program meets the hypotheses. -/
example : Function.Injective exId ∧ NoClash exId exOps ∧
    (run exId 0 new exOps).1.getLast? = some (some 2) ∧
    iter (run exId 0 new exOps).2 = [.hashable 0, .unhashable true, .unhashable false] := by
  refine ⟨?_, ?_, rfl, rfl⟩
  · intro a b h; cases a <;> cases b <;> simp [exId] at h ⊢
  · intro a ha b hb h u e e'
    have h0 : h = 0 := by
      simp only [exOps, List.mem_cons, List.not_mem_nil, or_false] at ha
      rcases ha with rfl | rfl | rfl | rfl | rfl | rfl <;> simp_all [Op.key]
    subst h0
    cases u <;> simp [exId]

/-- C86: and this state meets the hypothesis of the last theorem. -/
example : iter (run exId 0 new exOps).2
    = .hashable 0 :: .unhashable true :: [.unhashable false] := rfl

/-- C86: `None` (0) can be deleted from that program's dict, and another number is not in it. -/
example : .hashable 0 ∈ iter (run exId 0 new exOps).2 ∧
    contains (run exId 0 new exOps).2 (.hashable 3) = .ok false ∧
    (∀ op ∈ exOps, ∀ u, op.key = some (.unhashable u) → (0 : ℕ) ≠ exId u) ∧
    (delItem (run exId 0 new exOps).2 (.hashable 0)).map iter
      = .ok [.unhashable true, .unhashable false] := by
  refine ⟨by decide, rfl, ?_, rfl⟩
  intro _ _ u _
  cases u <;> simp [exId]

/-- **C86** (numbers as keys). A number that happens to be the `id` of a dict in use is taken for that
dict: what was stored under the one is returned for the other. -/
theorem C86_number_clash_refuted :
    (run exId 0 (new : TD ℕ Bool ℕ) [.set (.unhashable true) 7, .get (.hashable 1001)]).1
      = [none, some 7] ∧
    (idealRun 0 ([] : Dict (Obj ℕ Bool) ℕ) [.set (.unhashable true) 7, .get (.hashable 1001)]).1
      = [none, some 0] := ⟨rfl, rfl⟩

/-! ### The history of transactions -/

variable {P K : Type} [DecidableEq P] [Field K] [LinearOrder K]

theorem kept_inv (y0 : ℤ) (ops : List (KOp P K)) :
    let s := (newKept y0 : Kept P K).run ops
    (∀ y r, Dict.get? s.hist y = some r → r = s.ref ∧ y < s.year) ∧ y0 ≤ s.year ∧
    (∀ y, y0 ≤ y → y < s.year → Dict.get? s.hist y = some s.ref) := by
  have key : ∀ (ops : List (KOp P K)) (s : Kept P K),
      ((∀ y r, Dict.get? s.hist y = some r → r = s.ref ∧ y < s.year) ∧ y0 ≤ s.year ∧
        (∀ y, y0 ≤ y → y < s.year → Dict.get? s.hist y = some s.ref)) →
      (∀ y r, Dict.get? (s.run ops).hist y = some r → r = (s.run ops).ref ∧ y < (s.run ops).year) ∧
      y0 ≤ (s.run ops).year ∧
        (∀ y, y0 ≤ y → y < (s.run ops).year → Dict.get? (s.run ops).hist y = some (s.run ops).ref) := by
    intro ops
    induction ops with
    | nil => intro s h; exact h
    | cons op ops ih =>
      intro s h
      refine ih (s.step op) ?_
      obtain ⟨h1, h2, h3⟩ := h
      cases op with
      | add o w v => exact ⟨h1, h2, h3⟩
      | nextYear =>
        have ht : s.transactions = s.ref := by
          simp only [Kept.transactions]
          cases hg : Dict.get? s.hist s.year with
          | none => rfl
          | some r => exact absurd (h1 _ _ hg).2 (lt_irrefl _)
        simp only [Kept.step, Kept.nextYear, Kept.put, ht]
        refine ⟨?_, by omega, ?_⟩
        · intro y r hr
          rw [Dict.get?_set] at hr
          split at hr
          · rename_i e
            cases hr
            exact ⟨rfl, by omega⟩
          · obtain ⟨a, b⟩ := h1 y r hr
            exact ⟨a, by omega⟩
        · intro y hy hlt
          rw [Dict.get?_set]
          split
          · rfl
          · rename_i e
            exact h3 y hy (by omega)
  exact key ops _ ⟨fun y r h => (by cases h), le_refl _, fun y h1 h2 => absurd h2 (not_lt.2 h1)⟩

/-- **C86** (there is no history, against the documentation of `recorded_property`). At all times,
`transactions_history[y]` of every past year is the dict of this year's transactions. -/
theorem C86_history_of_transactions_refuted (y0 : ℤ) (ops : List (KOp P K)) (y : ℤ) :
    let s := (newKept y0 : Kept P K).run ops
    y0 ≤ y → y < s.year → s.past y = some (s.heap s.transactions) := by
  intro s h1 h2
  obtain ⟨a, _, b⟩ := kept_inv (P := P) (K := K) y0 ops
  have ht : s.transactions = s.ref := by
    simp only [Kept.transactions]
    cases hg : Dict.get? s.hist s.year with
    | none => rfl
    | some r => exact absurd (a _ _ hg).2 (lt_irrefl _)
  rw [Kept.past, b y h1 h2, ht]
  rfl

/-- **C86** (what `next_year` leaves). When a year has been closed, the transactions of that year are
gone from the history: it says that there were none, in that year and in all before. -/
theorem C86_next_year_forgets_refuted (y0 : ℤ) (ops : List (KOp P K)) (y : ℤ) :
    let s := ((newKept y0 : Kept P K).run ops).nextYear
    y0 ≤ y → y < s.year → s.past y = some [] := by
  intro s h1 h2
  have e : s = (newKept y0 : Kept P K).run (ops ++ [.nextYear]) := by
    simp only [Kept.run, List.foldl_append]; rfl
  have h := C86_history_of_transactions_refuted (P := P) (K := K) y0 (ops ++ [.nextYear]) y
  rw [← e] at h
  rw [h h1 h2]
  have : s.heap s.transactions = [] := by
    show (Kept.nextYear _).heap (Kept.nextYear _).transactions = []
    simp only [Kept.nextYear, Kept.put, Kept.transactions]
    simp
  rw [this]

/-- C86: 100 paid to pool 7 in 2020; a year later nothing is known of it, and what is done in 2021
shows up in 2020. -/
example : let s := (newKept 2020 : Kept ℕ ℚ).run [.add (some 7) 0 100]
    s.heap s.transactions = [(some 7, [(0, 100)])] ∧ s.nextYear.past 2020 = some [] ∧
    (s.nextYear.add none (1/2) 3).past 2020 = some [(none, [(1/2, 3)])] := by
  refine ⟨?_, ?_, ?_⟩ <;> decide +kernel

end Forecaster.TxDict
