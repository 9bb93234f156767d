import Verif.Model.Link
import Verif.Props.Account

/-!
# Properties of linked accounts (C25 - C27)
-/

set_option linter.unusedSectionVars false

namespace Forecaster.Link

open Forecaster Forecaster.Timing Forecaster.Account

variable {O T Acc V : Type} [DecidableEq O] [DecidableEq T] [DecidableEq Acc]

/-! ## C25 -/

/-- Specification: what one group of linked accounts looks like, as a tiny state machine:
`none` = no record; otherwise the shared value and who is a member. -/
structure Group (Acc V : Type) where
  data : V
  member : Acc → Bool

/-- Specification: the effect of an operation on *its own* group. -/
def specStep (g : Option (Group Acc V)) : Op O T Acc V → Option (Group Acc V)
  | .create l => some (g.getD ⟨l.default, fun _ => false⟩)
  | .unregister _ => none
  | .setData _ v => g.map fun g => { g with data := v }
  | .link _ a => g.map fun g => { g with member := fun b => b == a || g.member b }
  | .unlink _ a => g.map fun g => { g with member := fun b => b != a && g.member b }

/-- Specification: a program only affects group `(o, t)` through the operations made with links
whose owner is `o` and whose token is `t`. -/
def specRun (o : O) (t : T) (g : Option (Group Acc V)) (ops : List (Op O T Acc V)) :
    Option (Group Acc V) :=
  (ops.filter fun op => decide (op.via.owner = o ∧ op.via.token = t)).foldl specStep g

/-- What is observable about group `(o, t)` through a link with that owner and token. -/
def observe (s : Store O T Acc V) (o : O) (t : T) : Option (Group Acc V) :=
  (Dict.get? (s o) t).map fun r => ⟨r.data, fun a => decide (a ∈ r.group)⟩

/-- Stores hold real dicts. -/
def StoreWF (s : Store O T Acc V) : Prop := ∀ o, Dict.WF (s o)

theorem get_put (s : Store O T Acc V) (l : AccountLink O T V) (r : Record Acc V) (o : O) (t : T) :
    Dict.get? (putRecord s l r o) t
      = if l.owner = o ∧ l.token = t then some r else Dict.get? (s o) t := by
  unfold putRecord
  by_cases h : o = l.owner
  · subst h
    by_cases h2 : l.token = t
    · simp [h2, Dict.get?_set]
    · simp [h2, Dict.get?_set]
  · rw [if_neg h, if_neg]
    rintro ⟨h1, -⟩; exact h h1.symm

theorem wf_put {s : Store O T Acc V} (hs : StoreWF s) (l : AccountLink O T V)
    (r : Record Acc V) : StoreWF (putRecord s l r) := by
  intro o
  unfold putRecord
  split
  · exact Dict.wf_set (hs o) _ _
  · exact hs o

theorem wf_step {s s' : Store O T Acc V} (hs : StoreWF s) {op : Op O T Acc V}
    (h : step s op = .ok s') : StoreWF s' := by
  cases op with
  | create l =>
    simp only [step, register, Except.ok.injEq] at h
    subst h; split
    · exact hs
    · exact wf_put hs _ _
  | unregister l =>
    simp only [step, unregister, Except.ok.injEq] at h
    subst h
    split
    · intro o
      by_cases h : o = l.owner
      · simp only [h, if_true]; exact Dict.wf_del (hs _) _
      · simp only [h, if_false]; exact hs o
    · exact hs
  | setData l v =>
    simp only [step, setData] at h
    split at h
    · cases h; exact wf_put hs _ _
    · cases h
  | link l a =>
    simp only [step, linkAccount] at h
    split at h
    · cases h; exact wf_put hs _ _
    · cases h
  | unlink l a =>
    simp only [step, unlinkAccount] at h
    split at h
    · split at h
      · cases h; exact wf_put hs _ _
      · cases h
    · cases h

theorem observe_put (s : Store O T Acc V) (l : AccountLink O T V) (r : Record Acc V) (o : O)
    (t : T) : observe (putRecord s l r) o t
      = if l.owner = o ∧ l.token = t then some ⟨r.data, fun a => decide (a ∈ r.group)⟩
        else observe s o t := by
  unfold observe
  rw [get_put]
  split <;> rfl

/-- The effect of one operation (failed or not) on what is observable. -/
theorem observe_step {s : Store O T Acc V} (hs : StoreWF s) (op : Op O T Acc V) (o : O) (t : T) :
    observe (match step s op with | .ok s' => s' | .error _ => s) o t
      = if op.via.owner = o ∧ op.via.token = t then specStep (observe s o t) op
        else observe s o t := by
  cases op with
  | create l =>
    simp only [step, register, isRegistered, record, Op.via]
    rcases Option.eq_none_or_eq_some (Dict.get? (s l.owner) l.token) with hr | ⟨r, hr⟩
    · simp only [hr, Option.isSome_none, Bool.false_eq_true, if_false, observe_put]
      by_cases h : l.owner = o ∧ l.token = t
      · obtain ⟨rfl, rfl⟩ := h
        simp [specStep, observe, hr]
      · simp [h]
    · simp only [hr, Option.isSome_some, if_true]
      by_cases h : l.owner = o ∧ l.token = t
      · obtain ⟨rfl, rfl⟩ := h
        simp [specStep, observe, hr]
      · simp [h]
  | unregister l =>
    simp only [step, unregister, isRegistered, record, Op.via]
    rcases Option.eq_none_or_eq_some (Dict.get? (s l.owner) l.token) with hr | ⟨r, hr⟩
    · simp only [hr, Option.isSome_none, Bool.false_eq_true, if_false]
      by_cases h : l.owner = o ∧ l.token = t
      · obtain ⟨rfl, rfl⟩ := h
        simp [specStep, observe, hr]
      · simp [h]
    · simp only [hr, Option.isSome_some, if_true]
      unfold observe
      by_cases ho : o = l.owner
      · subst ho
        simp only [if_true, Dict.get?_del (hs _)]
        by_cases h : l.token = t
        · simp [h, specStep]
        · simp [h]
      · have : ¬ (l.owner = o ∧ l.token = t) := fun h => ho h.1.symm
        simp [ho, this]
  | setData l v =>
    simp only [step, setData, record, Op.via]
    cases hr : Dict.get? (s l.owner) l.token with
    | none =>
      by_cases h : l.owner = o ∧ l.token = t
      · obtain ⟨rfl, rfl⟩ := h
        simp [specStep, observe, hr]
      · simp [h]
    | some r =>
      simp only [observe_put]
      by_cases h : l.owner = o ∧ l.token = t
      · obtain ⟨rfl, rfl⟩ := h
        simp [specStep, observe, hr]
      · simp [h]
  | link l a =>
    simp only [step, linkAccount, record, Op.via]
    cases hr : Dict.get? (s l.owner) l.token with
    | none =>
      by_cases h : l.owner = o ∧ l.token = t
      · obtain ⟨rfl, rfl⟩ := h
        simp [specStep, observe, hr]
      · simp [h]
    | some r =>
      simp only [observe_put]
      by_cases h : l.owner = o ∧ l.token = t
      · obtain ⟨rfl, rfl⟩ := h
        simp only [and_self, if_true, specStep, observe, hr, Option.map_some, Option.some.injEq,
          Group.mk.injEq, true_and]
        funext b
        by_cases hb : b = a
        · subst hb
          by_cases hm : b ∈ r.group <;> simp [hm]
        · by_cases hm : a ∈ r.group <;> simp [hm, hb]
      · simp [h]
  | unlink l a =>
    simp only [step, unlinkAccount, record, Op.via]
    cases hr : Dict.get? (s l.owner) l.token with
    | none =>
      by_cases h : l.owner = o ∧ l.token = t
      · obtain ⟨rfl, rfl⟩ := h
        simp [specStep, observe, hr]
      · simp [h]
    | some r =>
      by_cases hm : a ∈ r.group
      · simp only [hm, if_true, observe_put]
        by_cases h : l.owner = o ∧ l.token = t
        · obtain ⟨rfl, rfl⟩ := h
          simp only [and_self, if_true, specStep, observe, hr, Option.map_some, Option.some.injEq,
            Group.mk.injEq, true_and]
          funext b
          by_cases hb : b = a <;> simp [hb]
        · simp [h]
      · simp only [hm, if_false]
        by_cases h : l.owner = o ∧ l.token = t
        · obtain ⟨rfl, rfl⟩ := h
          simp only [and_self, if_true, specStep, observe, hr, Option.map_some, Option.some.injEq,
            Group.mk.injEq, true_and]
          funext b
          by_cases hb : b = a
          · subst hb; simp [hm]
          · simp [hb]
        · simp [h]

/-- **C25.** For every program of link operations, what is observable about each `(owner, token)`
group - the shared data and its members - is exactly what the operations made through links
with that same owner and token produce, in order; operations through any other link have no
effect on it. -/
theorem C25_groups_are_independent_records (ops : List (Op O T Acc V)) (o : O) (t : T) :
    observe (run (fun _ => []) ops) o t = specRun o t none ops := by
  have gen : ∀ (ops : List (Op O T Acc V)) (s : Store O T Acc V), StoreWF s →
      observe (run s ops) o t = specRun o t (observe s o t) ops := by
    intro ops
    induction ops with
    | nil => intro s _; rfl
    | cons op ops ih =>
      intro s hs
      have e : run s (op :: ops)
          = run (match step s op with | .ok s' => s' | .error _ => s) ops := rfl
      have hs' : StoreWF (match step s op with | .ok s' => s' | .error _ => s) := by
        cases h : step s op with
        | error e => exact hs
        | ok s' => exact wf_step hs h
      rw [e, ih _ hs', observe_step hs]
      unfold specRun
      by_cases h : op.via.owner = o ∧ op.via.token = t
      · rw [if_pos h, List.filter_cons_of_pos (by simpa using h), List.foldl_cons]
      · rw [if_neg h, List.filter_cons_of_neg (by simpa using h)]
  exact gen ops _ fun _ => Dict.wf_nil

/-- **C25.** Two `AccountLink` objects with equal owner and token (whatever their
`default_factory`) always agree: same data, same group, in every store; and assigning through
one is read back through the other, leaving every other group alone. -/
theorem C25_equal_links_agree (s : Store O T Acc V) (l l' : AccountLink O T V)
    (ho : l.owner = l'.owner) (ht : l.token = l'.token) (v : V) :
    getData s l = getData s l' ∧ getGroup s l = getGroup s l' ∧
    isRegistered s l = isRegistered s l' ∧
    (∀ s', setData s l v = .ok s' → getData s' l' = some v ∧ getGroup s' l' = getGroup s l' ∧
      ∀ m : AccountLink O T V, ¬ (m.owner = l.owner ∧ m.token = l.token) →
        getData s' m = getData s m ∧ getGroup s' m = getGroup s m) := by
  refine ⟨by simp [getData, record, ho, ht], by simp [getGroup, record, ho, ht],
    by simp [isRegistered, record, ho, ht], fun s' h => ?_⟩
  unfold setData record at h
  cases hr : Dict.get? (s l.owner) l.token with
  | none => rw [hr] at h; cases h
  | some r =>
    rw [hr] at h
    simp only [Except.ok.injEq] at h
    subst h
    refine ⟨?_, ?_, fun m hm => ?_⟩
    · simp [getData, record, get_put, ho, ht]
    · simp only [getGroup, record, get_put, ho, ht, and_self, if_true, Option.map_some]
      rw [← ho, ← ht, hr]; rfl
    · have : ¬ (l.owner = m.owner ∧ l.token = m.token) := fun h => hm ⟨h.1.symm, h.2.symm⟩
      simp [getData, getGroup, record, get_put, this]

/-- **C25.** Creating a second link to an existing group does not reset it: the default is used
only the first time. -/
theorem C25_default_used_once (s : Store O T Acc V) (l : AccountLink O T V) :
    (isRegistered s l = true → register s l = s) ∧
    (isRegistered s l = false → getData (register s l) l = some l.default ∧
      getGroup (register s l) l = some []) := by
  constructor
  · intro h; simp [register, h]
  · intro h
    simp [register, h, getData, getGroup, record, get_put]

/-- **C25** (errors). Setting the data of a link nobody has registered raises `AttributeError`, removing an
account that is not in the group `KeyError`; otherwise they succeed. -/
theorem C25_errors (s : Store O T Acc V) (l : AccountLink O T V) (a : Acc) (v : V) :
    (getGroup s l = none → setData s l v = .error .attributeError ∧
      unlinkAccount s l a = .error .attributeError) ∧
    (∀ g, getGroup s l = some g → (∃ s', setData s l v = .ok s') ∧
      (a ∉ g → unlinkAccount s l a = .error .keyError) ∧
      (a ∈ g → ∃ s', unlinkAccount s l a = .ok s' ∧ getGroup s' l = some (g.filter (· ≠ a)) ∧
        getData s' l = getData s l)) := by
  unfold getGroup setData unlinkAccount
  cases hr : record s l with
  | none => simp
  | some r =>
    refine ⟨fun h => by simp at h, fun g hg => ?_⟩
    simp only [Option.map_some, Option.some.injEq] at hg
    subst hg
    refine ⟨⟨_, rfl⟩, fun h => if_neg h, fun h => ⟨_, if_pos h, ?_, ?_⟩⟩
    · simp [get_put, record]
    · have : (s l.owner).get? l.token = some r := hr
      simp [getData, get_put, this, record]

/-- **C25.** Constructing a `LinkedLimitAccount` with a link makes it a member of the group and
sets the group's limit if one was given - visible through every equal link; without a limit
an existing limit is kept. -/
theorem C25_process_link (s : Store O T Acc V) (self : Acc) (l l' : AccountLink O T V)
    (ho : l.owner = l'.owner) (ht : l.token = l'.token) (limit : Option V) :
    ∃ s', processLink s self (some l) limit = .ok s' ∧
      (∃ g, getGroup s' l' = some g ∧ self ∈ g) ∧
      (∀ v, limit = some v → getData s' l' = some v) ∧
      (limit = none → ∀ v, getData s l' = some v → getData s' l' = some v) := by
  have hreg : ∃ r, record (register s l) l = some r ∧
      ∀ v, getData s l' = some v → r.data = v := by
    unfold register isRegistered
    cases hr : record s l with
    | some r =>
      refine ⟨r, by simp [hr], fun v hv => ?_⟩
      have : record s l' = some r := by
        rw [← hr]; simp [record, ho, ht]
      simpa [getData, this] using hv
    | none =>
      refine ⟨⟨[], l.default⟩, by simp [record, get_put], fun v hv => ?_⟩
      have : record s l' = none := by rw [← hr]; simp [record, ho, ht]
      simp [getData, this] at hv
  obtain ⟨r, hr, hd⟩ := hreg
  have hl : linkAccount (register s l) l self = .ok (putRecord (register s l) l
      { r with group := if self ∈ r.group then r.group else r.group ++ [self] }) := by
    simp [linkAccount, hr]
  have hmem : self ∈ (if self ∈ r.group then r.group else r.group ++ [self]) := by
    split <;> simp [*]
  cases limit with
  | none =>
    refine ⟨_, by simp [processLink, hl]; rfl, ⟨_, by simp [getGroup, record, get_put, ho, ht],
      hmem⟩, by simp, fun _ v hv => ?_⟩
    simp [getData, record, get_put, ho, ht, hd v hv]
  | some v =>
    have hrec : record (putRecord (register s l) l
      { r with group := if self ∈ r.group then r.group else r.group ++ [self] }) l
        = some { r with group := if self ∈ r.group then r.group else r.group ++ [self] } := by
      simp [record, get_put]
    refine ⟨_, by simp only [processLink, hl, ok_bind, setData, hrec]; rfl,
      ⟨_, by simp [getGroup, record, get_put, ho, ht], hmem⟩, ?_, by simp⟩
    rintro v' ⟨⟩
    simp [getData, record, get_put, ho, ht]

example : observe (run (fun _ => []) [.create ⟨"Ann", "RRSP", 0⟩, .link ⟨"Ann", "RRSP", 7⟩ 1,
    .setData ⟨"Ann", "RRSP", 0⟩ 500, .create ⟨"Bob", "RRSP", 3⟩, .link ⟨"Ann", "RRSP", 0⟩ 2,
    .unlink ⟨"Ann", "RRSP", 0⟩ 1] : Store String String ℕ ℕ) "Ann" "RRSP"
    = some ⟨500, fun b => b != 1 && (b == 2 || (b == 1 || false))⟩ := by
  rw [C25_groups_are_independent_records]
  simp [specRun, specStep, Op.via]

/-! ## C27: the limit setters -/

/-- **C27** for the inflow setters (the full claim, for all four setters, is refuted below):
assigning `max_inflow_limit` (`min_inflow_limit`) is read back by every account with an equal
link; limits under other links do not change; without a link it is an `AttributeError`. -/
theorem C27_inflow_setters (s : Store O T Acc V) (L : Links O T V) (v : V) :
    (L.maxIn = none → setMaxInflowLimit s L v = .error .attributeError) ∧
    (L.minIn = none → setMinInflowLimit s L v = .error .attributeError) ∧
    (∀ l, L.maxIn = some l → isRegistered s l = true → ∃ s', setMaxInflowLimit s L v = .ok s' ∧
      (∀ (L' : Links O T V) l' d, L'.maxIn = some l' → l'.owner = l.owner → l'.token = l.token →
        getLimit s' L'.maxIn d = some v) ∧
      (∀ (m : Option (AccountLink O T V)) d,
        (∀ l', m = some l' → ¬ (l'.owner = l.owner ∧ l'.token = l.token)) →
        getLimit s' m d = getLimit s m d)) ∧
    (∀ l, L.minIn = some l → isRegistered s l = true → ∃ s', setMinInflowLimit s L v = .ok s' ∧
      (∀ (L' : Links O T V) l' d, L'.minIn = some l' → l'.owner = l.owner → l'.token = l.token →
        getLimit s' L'.minIn d = some v) ∧
      (∀ (m : Option (AccountLink O T V)) d,
        (∀ l', m = some l' → ¬ (l'.owner = l.owner ∧ l'.token = l.token)) →
        getLimit s' m d = getLimit s m d)) := by
  have key : ∀ l : AccountLink O T V, isRegistered s l = true → ∃ s', setLimit s (some l) v = .ok s' ∧
      (∀ l' : AccountLink O T V, l'.owner = l.owner → l'.token = l.token →
        getData s' l' = some v) ∧
      (∀ (m : Option (AccountLink O T V)) d,
        (∀ l', m = some l' → ¬ (l'.owner = l.owner ∧ l'.token = l.token)) →
        getLimit s' m d = getLimit s m d) := by
    intro l hl
    unfold isRegistered record at hl
    obtain ⟨r, hr⟩ := Option.isSome_iff_exists.1 hl
    have hset : setData s l v = .ok (putRecord s l { r with data := v }) := by
      simp [setData, record, hr]
    refine ⟨_, hset, fun l' h1 h2 => ?_, fun m d hm => ?_⟩
    · exact ((C25_equal_links_agree s l l' h1.symm h2.symm v).2.2.2 _ hset).1
    · cases m with
      | none => rfl
      | some m =>
        exact ((C25_equal_links_agree s l l rfl rfl v).2.2.2 _ hset).2.2 m (hm m rfl) |>.1
  refine ⟨fun h => by simp [setMaxInflowLimit, setLimit, h],
    fun h => by simp [setMinInflowLimit, setLimit, h], ?_, ?_⟩
  · intro l hl hreg
    obtain ⟨s', h1, h2, h3⟩ := key l hreg
    refine ⟨s', by simp [setMaxInflowLimit, hl, h1], fun L' l' d h4 h5 h6 => ?_, h3⟩
    rw [h4]; exact h2 l' h5 h6
  · intro l hl hreg
    obtain ⟨s', h1, h2, h3⟩ := key l hreg
    refine ⟨s', by simp [setMinInflowLimit, hl, h1], fun L' l' d h4 h5 h6 => ?_, h3⟩
    rw [h4]; exact h2 l' h5 h6

/-- **C27** (no link). Whatever is done through links, an account without a link for one of its limits
keeps the limit its class has, and one whose link has been unregistered has none (`None`). -/
theorem C27_without_link (ops : List (Op O T Acc V)) (d : V) :
    getLimit (run (fun _ => []) ops) none d = some d ∧
    ∀ l, getLimit (run (fun _ => []) (ops ++ [.unregister l])) (some l) d = none := by
  refine ⟨rfl, fun l => ?_⟩
  have h := C25_groups_are_independent_records (ops ++ [.unregister l]) l.owner l.token
  have : specRun l.owner l.token none (ops ++ [.unregister l]) = none := by
    simp [specRun, specStep, Op.via]
  rw [this] at h
  simp only [getLimit, getData, record]
  simp only [observe] at h
  cases hr : Dict.get? (run (fun _ => []) (ops ++ [.unregister l]) l.owner) l.token with
  | none => rfl
  | some r => rw [hr] at h; cases h

/-- **C27 is false for the outflow setters**: on an account with separate registered links for
inflows and outflows, assigning `max_outflow_limit` overwrites the maximum *inflow* limit and
leaves the maximum outflow limit as it was; likewise for the minimum limits. -/
theorem C27_outflow_setters_write_inflow_limit (s : Store O T Acc V) (L : Links O T V) (v d : V)
    (li lo : AccountLink O T V) (hreg : isRegistered s li = true)
    (hne : ¬ (lo.owner = li.owner ∧ lo.token = li.token)) :
    (L.maxIn = some li → L.maxOut = some lo → ∃ s', setMaxOutflowLimit s L v = .ok s' ∧
      getLimit s' L.maxIn d = some v ∧ getLimit s' L.maxOut d = getLimit s L.maxOut d) ∧
    (L.minIn = some li → L.minOut = some lo → ∃ s', setMinOutflowLimit s L v = .ok s' ∧
      getLimit s' L.minIn d = some v ∧ getLimit s' L.minOut d = getLimit s L.minOut d) := by
  obtain ⟨-, -, h1, h2⟩ := C27_inflow_setters s L v
  constructor
  · intro hi ho
    obtain ⟨s', h3, h4, h5⟩ := h1 li hi hreg
    refine ⟨s', h3, h4 L li d hi rfl rfl, h5 _ d fun l' hl' => ?_⟩
    rw [ho] at hl'; cases hl'; exact hne
  · intro hi ho
    obtain ⟨s', h3, h4, h5⟩ := h2 li hi hreg
    refine ⟨s', h3, h4 L li d hi rfl rfl, h5 _ d fun l' hl' => ?_⟩
    rw [ho] at hl'; cases hl'; exact hne

/-- A concrete witness: inflow limit 500, outflow limit 300; setting the outflow limit to 100
makes the inflow limit 100. -/
example :
    let s : Store String String ℕ ℤ := run (fun _ => [])
      [.create ⟨"Ann", "in", 500⟩, .create ⟨"Ann", "out", 300⟩]
    let L : Links String String ℤ := ⟨some ⟨"Ann", "in", 0⟩, none, some ⟨"Ann", "out", 0⟩, none⟩
    ∃ s', setMaxOutflowLimit s L 100 = .ok s' ∧
      getLimit s' L.maxIn 0 = some 100 ∧ getLimit s' L.maxOut 0 = some 300 :=
  (C27_outflow_setters_write_inflow_limit _ _ 100 0 ⟨"Ann", "in", 0⟩ ⟨"Ann", "out", 0⟩
    (by decide) (by decide)).1 rfl rfl

/-! ## C26: sharing contribution room -/

variable {K : Type} [Field K] [LinearOrder K] [IsStrictOrderedRing K]

/-- Merging adds up: at every date, the merged transactions are the base's plus every linked
account's recorded and hypothetical ones. -/
theorem C26_merge_transactions (transactions own : Option (Dict K K))
    (others : List (Dict K K × Option (Dict K K)))
    (h0 : ∀ t ∈ transactions, Dict.WF t) (h1 : ∀ t ∈ own, Dict.WF t)
    (h2 : ∀ o ∈ others, Dict.WF o.1 ∧ ∀ e ∈ o.2, Dict.WF e) (k : K) :
    Dict.WF (mergeTransactions transactions own (some others)) ∧
    Dict.val (mergeTransactions transactions own (some others)) k
      = Dict.val (transactions.getD (own.getD [])) k
        + (others.map fun o => Dict.val o.1 k + Dict.val (o.2.getD []) k).sum ∧
    Dict.total (mergeTransactions transactions own (some others))
      = Dict.total (transactions.getD (own.getD []))
        + (others.map fun o => Dict.total o.1 + Dict.total (o.2.getD [])).sum ∧
    mergeTransactions transactions own none = transactions.getD (own.getD []) := by
  have hone : ∀ (t : Dict K K) (o : Dict K K × Option (Dict K K)), Dict.WF t →
      (Dict.WF o.1 ∧ ∀ e ∈ o.2, Dict.WF e) →
      Dict.WF (mergeOne t o) ∧
      Dict.val (mergeOne t o) k = Dict.val t k + (Dict.val o.1 k + Dict.val (o.2.getD []) k) ∧
      Dict.total (mergeOne t o) = Dict.total t + (Dict.total o.1 + Dict.total (o.2.getD [])) := by
    intro t o ht ho
    unfold mergeOne
    cases he : o.2 with
    | none =>
      simp only [Option.getD_none, Dict.val_nil, add_zero, Dict.total_nil]
      exact ⟨wf_add ht _, val_add _ ho.1 k, total_add ht _⟩
    | some e =>
      simp only [Option.getD_some]
      refine ⟨wf_add (wf_add ht _) _, ?_, ?_⟩
      · rw [val_add _ (ho.2 e he), val_add _ ho.1]; ring
      · rw [total_add (wf_add ht _), total_add ht]; ring
  have hbase : Dict.WF (transactions.getD (own.getD [])) := by
    cases transactions with
    | some t => exact h0 t rfl
    | none => cases own with
      | some t => exact h1 t rfl
      | none => exact Dict.wf_nil
  have hfold : ∀ (os : List (Dict K K × Option (Dict K K))) (t : Dict K K), Dict.WF t →
      (∀ o ∈ os, Dict.WF o.1 ∧ ∀ e ∈ o.2, Dict.WF e) →
      Dict.WF (os.foldl mergeOne t) ∧
      Dict.val (os.foldl mergeOne t) k
        = Dict.val t k + (os.map fun o => Dict.val o.1 k + Dict.val (o.2.getD []) k).sum ∧
      Dict.total (os.foldl mergeOne t)
        = Dict.total t + (os.map fun o => Dict.total o.1 + Dict.total (o.2.getD [])).sum := by
    intro os
    induction os with
    | nil => intro t ht _; simp [ht]
    | cons o os ih =>
      intro t ht ho
      obtain ⟨e1, e2, e3⟩ := hone t o ht (ho o (by simp))
      obtain ⟨e4, e5, e6⟩ := ih _ e1 fun x hx => ho x (by simp [hx])
      refine ⟨e4, ?_, ?_⟩
      · rw [List.foldl_cons, e5, e2]; simp only [List.map_cons, List.sum_cons]; ring
      · rw [List.foldl_cons, e6, e3]; simp only [List.map_cons, List.sum_cons]; ring
  obtain ⟨e1, e2, e3⟩ := hfold others _ hbase h2
  clear h0 hbase
  cases transactions <;> exact ⟨e1, e2, e3, rfl⟩

/-- Hypotheses on each account of the group: usable, with a default timing. -/
structure Usable (a : Acct K) : Prop where
  reach : Reachable a
  growth : IsGrowth a.A
  timing : GoodTiming a.defaultTiming

/-- Hypotheses on the group: contributions and withdrawals are not mixed. No date of the year has
both contributions and withdrawals (in the group), and there are no withdrawals on dates on which
an account of the group contributes by default. -/
structure Unmixed (as : List (Acct K)) : Prop where
  sameSign : ∀ k, (∀ a ∈ as, 0 ≤ Dict.val a.txns k) ∨ (∀ a ∈ as, Dict.val a.txns k ≤ 0)
  dates : ∀ a ∈ as, ∀ k ∈ Dict.keys a.defaultTiming, ∀ b ∈ as, 0 ≤ Dict.val b.txns k

/-- Total contributions of the group this year. -/
def groupTotal (as : List (Acct K)) : K := (as.map fun a => inflows a none).sum

theorem posSum_cons (x : K × K) (d : Dict K K) : posSum (x :: d) = max x.2 0 + posSum d := by
  unfold posSum Dict.vals
  rw [List.map_cons, List.filter_cons]
  by_cases h : x.2 > 0
  · simp [h, max_eq_left h.le]
  · simp [h, max_eq_right (not_lt.1 h)]

theorem val_cons_eq {x : K × K} {d : Dict K K} (h : Dict.WF (x :: d)) (k : K) :
    Dict.val (x :: d) k = (if k = x.1 then x.2 else 0) + Dict.val d k := by
  rw [Dict.wf_cons] at h
  unfold Dict.val
  rw [Dict.get?_cons]
  by_cases hk : x.1 = k
  · subst hk
    rw [Dict.get?_eq_none.2 h.1]
    simp
  · simp [hk, Ne.symm hk]

/-- Contributions, date by date. -/
theorem posSum_eq {d : Dict K K} (hd : Dict.WF d) (F : Finset K) (hF : ∀ k ∈ Dict.keys d, k ∈ F) :
    posSum d = ∑ k ∈ F, max (Dict.val d k) 0 := by
  induction d with
  | nil => simp [posSum, Dict.vals, Dict.val_nil]
  | cons x d ih =>
    have hd' := Dict.wf_cons.1 hd
    rw [posSum_cons, ih hd'.2 fun k hk => hF k (by simp [hk])]
    have : ∀ k, max (Dict.val (x :: d) k) 0
        = (if k = x.1 then max x.2 0 else 0) + max (Dict.val d k) 0 := by
      intro k
      rw [val_cons_eq hd]
      by_cases hk : k = x.1
      · subst hk
        have : Dict.val d x.1 = 0 := Dict.val_of_not_mem hd'.1
        simp [this]
      · simp [hk]
    simp only [this, Finset.sum_add_distrib, Finset.sum_ite_eq', hF x.1 (by simp), if_true]

theorem total_eq_sum {d : Dict K K} (hd : Dict.WF d) (F : Finset K)
    (hF : ∀ k ∈ Dict.keys d, k ∈ F) : Dict.total d = ∑ k ∈ F, Dict.val d k := by
  induction d with
  | nil => simp [Dict.val_nil]
  | cons x d ih =>
    rw [Dict.total_cons, ih (Dict.wf_cons.1 hd).2 fun k hk => hF k (by simp [hk])]
    simp only [val_cons_eq hd, Finset.sum_add_distrib, Finset.sum_ite_eq', hF x.1 (by simp), if_true]

/-- Sums of numbers of the same sign. -/
theorem max_sum {l : List K} (h : (∀ x ∈ l, 0 ≤ x) ∨ (∀ x ∈ l, x ≤ 0)) :
    max l.sum 0 = (l.map fun x => max x 0).sum := by
  rcases h with h | h
  · rw [max_eq_left (List.sum_nonneg h)]
    congr 1
    conv_lhs => rw [← List.map_id l]
    exact List.map_congr_left fun x hx => (max_eq_left (h x hx)).symm
  · have h1 : l.sum ≤ 0 := by
      induction l with
      | nil => simp
      | cons x l ih =>
        rw [List.sum_cons]
        exact add_nonpos (h x (by simp)) (ih fun y hy => h y (by simp [hy]))
    rw [max_eq_right h1]
    symm
    apply List.sum_eq_zero
    intro y hy
    obtain ⟨x, hx, rfl⟩ := List.mem_map.1 hy
    exact max_eq_right (h x hx)

theorem sum_list_swap {α : Type} (l : List α) (F : Finset K) (f : α → K → K) :
    ∑ k ∈ F, (l.map fun a => f a k).sum = (l.map fun a => ∑ k ∈ F, f a k).sum := by
  induction l with
  | nil => simp
  | cons a l ih => simp only [List.map_cons, List.sum_cons, Finset.sum_add_distrib, ih]

theorem val_nonneg {d : Dict K K} (h : ∀ kv ∈ d, 0 ≤ kv.2) (k : K) : 0 ≤ Dict.val d k := by
  unfold Dict.val
  cases hg : Dict.get? d k with
  | none => simp
  | some v => exact h _ (Dict.mem_of_get? hg)

theorem finVals_map (d : Dict K K) : finVals (Dict.mapVals Ext.fin d) = some d := by
  unfold finVals Dict.mapVals
  induction d with
  | nil => rfl
  | cons a d ih => simp [List.mapM_cons, ih]

theorem reachable_apply {a a' : Acct K} (ha : Reachable a) {d : Dict K K}
    (hd : ∀ k ∈ Dict.keys d, 0 ≤ k ∧ k ≤ 1) (h : applyAll a d = .ok a') : Reachable a' := by
  obtain ⟨y, b, g, dt, ops, rfl⟩ := ha
  refine ⟨y, b, g, dt, ops ++ d.map fun kv => .add kv.2 (.num kv.1), ?_⟩
  have : Account.run (init y b g dt) (ops ++ d.map fun kv => Op.add kv.2 (.num kv.1))
      = Account.run (Account.run (init y b g dt) ops) (d.map fun kv => .add kv.2 (.num kv.1)) := by
    simp [Account.run, List.foldl_append]
  rw [this]
  generalize Account.run (init y b g dt) ops = a at *
  clear this
  unfold applyAll at h
  induction d generalizing a with
  | nil => simp only [List.foldlM_nil, except_pure, Except.ok.injEq] at h; subst h; rfl
  | cons x d ih =>
    rw [List.foldlM_cons] at h
    have hx := hd x.1 (by simp)
    have e := addTransaction_eq (a := a) (v := x.2) (whenConv_ok hx.1 hx.2)
    rw [e, ok_bind] at h
    have := ih (fun k hk => hd k (by simp [hk])) _ h
    rw [this]
    simp [Account.run, Account.step, e]

theorem sum_set_eq {as : List (Acct K)} {i : ℕ} {a a' : Acct K} (h : as[i]? = some a)
    (f : Acct K → K) :
    ((as.set i a').map f).sum = (as.map f).sum - f a + f a' ∧
    (as.map f).sum = f a + ((as.eraseIdx i).map f).sum := by
  induction as generalizing i with
  | nil => simp at h
  | cons x xs ih =>
    cases i with
    | zero =>
      simp only [List.getElem?_cons_zero, Option.some.injEq] at h
      subst h
      constructor
      · simp only [List.set_cons_zero, List.map_cons, List.sum_cons]; ring
      · simp
    | succ i =>
      simp only [List.getElem?_cons_succ] at h
      obtain ⟨h1, h2⟩ := ih h
      constructor
      · simp only [List.set_cons_succ, List.map_cons, List.sum_cons, h1]; ring
      · simp only [List.eraseIdx_cons_succ, List.map_cons, List.sum_cons]; rw [h2]; ring

/-- One contribution brings the group exactly to the limit (or does nothing if the limit has
been reached). -/
theorem contribute_step (lim : K) (as : List (Acct K)) (hc : ∀ a ∈ as, Usable a)
    (hu : Unmixed as) (i : ℕ) (hi : i < as.length) :
    ∃ as', contribute lim as i = .ok as' ∧ as'.length = as.length ∧ (∀ a ∈ as', Usable a) ∧
      Unmixed as' ∧
      groupTotal as' = max lim (groupTotal as) := by
  obtain ⟨a, ha⟩ : ∃ a, as[i]? = some a := ⟨as[i], by simp [hi]⟩
  have hca := hc a (List.mem_of_getElem? ha)
  set others := (as.eraseIdx i).map fun b => (b.txns, (none : Option (Dict K K))) with hoth
  set mg := mergeTransactions none none (some others) with hmg
  have hoc : ∀ b ∈ as.eraseIdx i, Usable b := fun b hb => hc b (List.mem_of_mem_eraseIdx hb)
  have hmerge : ∀ k : K, _ := fun k => C26_merge_transactions none none others (by simp) (by simp)
    (by
      intro o ho
      obtain ⟨b, hb, rfl⟩ := List.mem_map.1 ho
      exact ⟨(hoc b hb).reach.inv.tx.wf, by simp⟩) k
  have hmwf : Dict.WF mg := (hmerge 0).1
  have hmdated : Dated mg := by
    refine ⟨hmwf, ?_⟩
    have gen : ∀ (os : List (Dict K K × Option (Dict K K))) (t : Dict K K), Dated t →
        (∀ o ∈ os, Dated o.1 ∧ o.2 = none) → Dated (os.foldl mergeOne t) := by
      intro os
      induction os with
      | nil => intro t ht _; exact ht
      | cons o os ih =>
        intro t ht ho
        obtain ⟨h1, h2⟩ := ho o (by simp)
        apply ih _ _ fun x hx => ho x (by simp [hx])
        unfold mergeOne; rw [h2]
        exact dated_add ht h1
    refine (gen others [] dated_nil ?_).rng
    intro o ho
    obtain ⟨b, hb, rfl⟩ := List.mem_map.1 ho
    exact ⟨(hoc b hb).reach.inv.tx, rfl⟩
  have hready : Ready a none (some mg) a.defaultTiming :=
    ⟨hca.reach, hca.growth, rfl, hca.timing, by
      intro d hd; simp only [Option.mem_def, Option.some.injEq] at hd; subst hd; exact hmdated⟩
  obtain ⟨d, hd1, hd2, hd3, hd4⟩ := (C23_max_inflows { plainLimits with maxIn := .fin lim } a
    { transactions := some mg } a.defaultTiming hready rfl).1 lim rfl rfl
  obtain ⟨nt, ref, hnt, hw, hpos, href, hcore⟩ := core hready.fit
  have hdd : Dated d := by
    -- the schedule is `total * weight`
    have e : maxInflows { plainLimits with maxIn := .fin lim } a { transactions := some mg }
        = .ok (Dict.mapVals (fun w => (inCap (.fin lim) (inflows a (some mg)) none).mulFin w) nt) := by
      unfold maxInflows
      simp only [Option.getD_none]
      rw [ttb_eq href hready.resolves hnt hready.growth hw]
      have hinv : ¬ (weightedAccum a.A nt)⁻¹ < 0 := not_lt.2 (inv_pos.2 hpos).le
      simp only [Ext.subFin, Ext.mulFin, hinv, if_false, Ext.min_posInf_left]
      have : max (inCap (.fin lim) (inflows a (some mg)) none) (.fin 0)
        = inCap (.fin lim) (inflows a (some mg)) none := max_eq_left (le_max_right _ _)
      rw [this]
    rw [hd1] at e
    have hk : Dict.keys d = Dict.keys nt := by
      have := congrArg (fun r => match r with | Except.ok d => Dict.keys d | .error _ => []) e
      simpa using this
    exact ⟨by unfold Dict.WF; rw [hk]; exact hw.wf, by rw [hk]; exact hw.rng⟩
  obtain ⟨b, hb⟩ := hca.reach.inv.balance_ok
  have happ := applyAll_eq a hdd.rng
  have hfin : contribute lim as i = .ok (as.set i { a with txns := addTransactions a.txns d }) := by
    unfold contribute linkedMaxInflows
    rw [ha]
    simp only [← hoth, ← hmg, hd1, ok_bind, finVals_map]
    unfold applyAll at happ
    rw [happ, ok_bind]
  have hnew : Usable { a with txns := addTransactions a.txns d } :=
    ⟨reachable_apply hca.reach hdd.rng happ, hca.growth, hca.timing⟩
  have ham : a ∈ as := List.mem_of_getElem? ha
  -- contributions are on the dates of the timing
  have hdk : ∀ k, 0 ≤ Dict.val d k ∧ (Dict.val d k ≠ 0 → ∀ b ∈ as, 0 ≤ Dict.val b.txns k) := by
    intro k
    refine ⟨val_nonneg hd3 k, fun hne => hu.dates a ham k ?_⟩
    by_contra hk
    apply hne
    rw [hd2 k, if_neg hk, Dict.val_of_not_mem hk]
    simp
  have hval : ∀ k, Dict.val (addTransactions a.txns d) k = Dict.val a.txns k + Dict.val d k :=
    fun k => val_add _ hdd.wf k
  refine ⟨_, hfin, by simp, ?_, ⟨?_, ?_⟩, ?_⟩
  · intro x hx
    rcases List.mem_or_eq_of_mem_set hx with h | h
    · exact hc x h
    · rw [h]; exact hnew
  · intro k
    by_cases h0 : Dict.val d k = 0
    · have hsame : ∀ x ∈ as.set i { a with txns := addTransactions a.txns d }, ∃ y ∈ as,
          Dict.val x.txns k = Dict.val y.txns k := by
        intro x hx
        rcases List.mem_or_eq_of_mem_set hx with h | h
        · exact ⟨x, h, rfl⟩
        · subst h; exact ⟨a, ham, by simp only; rw [hval, h0, add_zero]⟩
      rcases hu.sameSign k with h | h
      · left; intro x hx; obtain ⟨y, hy, e⟩ := hsame x hx; rw [e]; exact h y hy
      · right; intro x hx; obtain ⟨y, hy, e⟩ := hsame x hx; rw [e]; exact h y hy
    · left
      intro x hx
      rcases List.mem_or_eq_of_mem_set hx with h | h
      · exact (hdk k).2 h0 x h
      · subst h; simp only; rw [hval]; exact add_nonneg ((hdk k).2 h0 a ham) (hdk k).1
  · intro x hx k hk
    have hx' : ∃ y ∈ as, y.defaultTiming = x.defaultTiming := by
      rcases List.mem_or_eq_of_mem_set hx with h | h
      · exact ⟨x, h, rfl⟩
      · subst h; exact ⟨a, ham, rfl⟩
    obtain ⟨y, hy, e⟩ := hx'
    have hall := hu.dates y hy k (by rw [e]; exact hk)
    intro b hb
    rcases List.mem_or_eq_of_mem_set hb with h | h
    · exact hall b h
    · subst h; simp only; rw [hval]; exact add_nonneg (hall a ham) (hdk k).1
  · obtain ⟨hs1, hs2⟩ := sum_set_eq (a' := { a with txns := addTransactions a.txns d }) ha
      (fun a : Acct K => inflows a none)
    have hin : ∀ x : Acct K, inflows x none = posSum x.txns := by intro x; simp [inflows]
    -- the dates involved
    let F : Finset K := (Dict.keys mg).toFinset ∪ (Dict.keys d).toFinset ∪
      (Dict.keys (addTransactions a.txns d)).toFinset ∪
      (as.flatMap fun b => Dict.keys b.txns).toFinset
    have hFas : ∀ b ∈ as, ∀ k ∈ Dict.keys b.txns, k ∈ F := by
      intro b hb k hk
      simp only [F, Finset.mem_union, List.mem_toFinset, List.mem_flatMap]
      exact .inr ⟨b, hb, hk⟩
    have hmt : posSum mg = ((as.eraseIdx i).map fun a => inflows a none).sum := by
      rw [posSum_eq hmwf F (by intro k hk; simp [F, hk])]
      have h1 : ∀ k, max (Dict.val mg k) 0 =
          ((as.eraseIdx i).map fun b => max (Dict.val b.txns k) 0).sum := by
        intro k
        have h2 : Dict.val mg k = ((as.eraseIdx i).map fun b => Dict.val b.txns k).sum := by
          rw [hmg, (hmerge k).2.1, hoth, List.map_map]
          simp [Function.comp_def, Dict.val_nil]
        rw [h2, max_sum, List.map_map]
        · rfl
        · rcases hu.sameSign k with h | h
          · left
            intro x hx
            obtain ⟨b, hb, rfl⟩ := List.mem_map.1 hx
            exact h b (List.mem_of_mem_eraseIdx hb)
          · right
            intro x hx
            obtain ⟨b, hb, rfl⟩ := List.mem_map.1 hx
            exact h b (List.mem_of_mem_eraseIdx hb)
      simp only [h1]
      rw [sum_list_swap]
      congr 1
      apply List.map_congr_left
      intro b hb
      have hb' := List.mem_of_mem_eraseIdx hb
      rw [hin, posSum_eq (hc b hb').reach.inv.tx.wf F (hFas b hb')]
    have hia : inflows a (some mg) = groupTotal as := by
      unfold groupTotal
      rw [hs2, ← hmt, hin a]
      simp only [inflows]
      ring
    have hadd : posSum (addTransactions a.txns d) = posSum a.txns + Dict.total d := by
      rw [posSum_eq (wf_add hca.reach.inv.tx.wf d) F (by intro k hk; simp [F, hk]),
        posSum_eq hca.reach.inv.tx.wf F (hFas a ham),
        total_eq_sum hdd.wf F (by intro k hk; simp [F, hk]), ← Finset.sum_add_distrib]
      apply Finset.sum_congr rfl
      intro k _
      rw [hval]
      by_cases h0 : Dict.val d k = 0
      · rw [h0, add_zero, add_zero]
      · have h1 := (hdk k).2 h0 a ham
        rw [max_eq_left h1, max_eq_left (add_nonneg h1 (hdk k).1)]
    unfold groupTotal at hia ⊢
    rw [hs1, hin a, hin]
    simp only
    rw [hadd, hd4]
    simp only [← inflows_eq, hia]
    rcases le_total lim ((as.map fun a => inflows a none).sum) with h | h
    · rw [max_eq_right (by linarith), max_eq_right h]; ring
    · rw [max_eq_left (by linarith), max_eq_left h]; ring

/-- **C26.** However the linked accounts take turns in contributing all that `max_inflows()` allows,
the group's total contributions never exceed the shared limit (nor what had been contributed before,
if that was already more), and the limit is fully used as soon as one of them has contributed -
unless contributions and withdrawals are on the same date (see
`C26_offsetting_flows_reopen_room`). -/
theorem C26_shared_room_not_exceeded (lim : K) (as : List (Acct K))
    (hc : ∀ a ∈ as, Usable a) (hu : Unmixed as) (turns : List ℕ) (hi : ∀ i ∈ turns, i < as.length) :
    ∃ as', turns.foldlM (contribute lim) as = .ok as' ∧
      groupTotal as' ≤ max lim (groupTotal as) ∧
      (turns ≠ [] → groupTotal as' = max lim (groupTotal as)) := by
  induction turns generalizing as with
  | nil => exact ⟨as, rfl, le_max_right _ _, fun h => absurd rfl h⟩
  | cons i turns ih =>
    obtain ⟨as1, h1, h2, h3, hu1, h4⟩ := contribute_step lim as hc hu i (hi i (by simp))
    obtain ⟨as2, h5, h6, -⟩ := ih as1 h3 hu1 fun j hj => by rw [h2]; exact hi j (by simp [hj])
    have hge : groupTotal as1 ≤ groupTotal as2 ∨ turns = [] := by
      by_cases ht : turns = []
      · exact Or.inr ht
      · left
        obtain ⟨as3, h5', -, h7⟩ := ih as1 h3 hu1 fun j hj => by rw [h2]; exact hi j (by simp [hj])
        rw [h5] at h5'; cases h5'
        rw [h7 ht]; exact le_max_right _ _
    have hle : groupTotal as2 ≤ max lim (groupTotal as) := by
      refine h6.trans ?_
      rw [h4]; exact max_le (le_max_left _ _) le_rfl
    refine ⟨as2, by rw [List.foldlM_cons, h1, ok_bind, h5], hle, fun _ => ?_⟩
    rcases hge with h | h
    · exact le_antisymm hle (h4 ▸ h)
    · subst h
      simp only [List.foldlM_nil, except_pure, Except.ok.injEq] at h5
      rw [← h5, h4]

/-- Account with given transactions, no growth, contributions at mid-year by default. -/
def plainAcct (ops : List (Account.Op ℚ)) : Acct ℚ :=
  Account.run (init 2000 0 (fun _ _ => 1) [(1 / 2, 1)]) ops

/-- Such accounts are usable. -/
theorem plain_usable (ops : List (Account.Op ℚ)) : Usable (plainAcct ops) := by
  have hg : (plainAcct ops).growth = fun _ _ => 1 := by
    unfold plainAcct; rw [(run_const _ _).1]; rfl
  have hd : (plainAcct ops).defaultTiming = [(1 / 2, 1)] := by
    unfold plainAcct; rw [(run_const _ _).2]; rfl
  refine ⟨⟨_, _, _, _, _, rfl⟩, ?_, ?_⟩
  · unfold Acct.A; rw [hg]
    exact ⟨rfl, fun _ _ => (one_mul _).symm, fun _ => zero_lt_one⟩
  · rw [hd]
    exact ⟨⟨by unfold Dict.WF; decide +kernel, by decide +kernel⟩, by decide +kernel,
      by decide +kernel⟩

/-- Three linked accounts; one has contributed in mid-year, one has withdrawn at the end. -/
def mixedGroup : List (Acct ℚ) :=
  [plainAcct [.add 30 (.num (1 / 2))], plainAcct [.add (-20) (.num 1)], plainAcct []]

theorem mixed_unmixed : Unmixed mixedGroup := by
  have h1 : (plainAcct [.add 30 (.num (1 / 2))]).txns = [(1 / 2, 30)] := by decide +kernel
  have h2 : (plainAcct [.add (-20) (.num 1)]).txns = [(1, -20)] := by decide +kernel
  have h3 : (plainAcct []).txns = [] := by decide +kernel
  have hd : ∀ a ∈ mixedGroup, a.defaultTiming = [(1 / 2, 1)] := by
    intro a ha
    simp only [mixedGroup, List.mem_cons, List.not_mem_nil, or_false] at ha
    rcases ha with rfl | rfl | rfl <;> decide +kernel
  have hv : ∀ k, k ≠ 1 → ∀ b ∈ mixedGroup, 0 ≤ Dict.val b.txns k := by
    intro k hk b hb
    simp only [mixedGroup, List.mem_cons, List.not_mem_nil, or_false] at hb
    rcases hb with rfl | rfl | rfl
    · rw [h1]
      by_cases h : (1 / 2 : ℚ) = k <;> simp only [Dict.val, Dict.get?_cons, h, if_true, if_false,
        Option.getD_some, Dict.get?_nil, Option.getD_none] <;> norm_num
    · rw [h2]; simp [Dict.val, Dict.get?_cons, Ne.symm hk]
    · rw [h3]; simp [Dict.val]
  refine ⟨fun k => ?_, ?_⟩
  · by_cases hk : k = 1
    · subst hk
      right
      intro b hb
      simp only [mixedGroup, List.mem_cons, List.not_mem_nil, or_false] at hb
      rcases hb with rfl | rfl | rfl
      · rw [h1]; decide +kernel
      · rw [h2]; decide +kernel
      · rw [h3]; decide +kernel
    · exact .inl (hv k hk)
  · intro a ha k hk
    rw [hd a ha] at hk
    simp only [Dict.keys, List.map_cons, List.map_nil, List.mem_cons, List.not_mem_nil,
      or_false] at hk
    subst hk
    exact hv _ (by norm_num)

/-- With a shared limit of 100, the second and the first account contribute: 70 more. -/
example : ∃ as', [1, 0].foldlM (contribute 100) mixedGroup = .ok as' ∧ groupTotal as' = 100 := by
  have h0 : groupTotal mixedGroup = 30 := by decide +kernel
  obtain ⟨as', h1, -, h3⟩ := C26_shared_room_not_exceeded 100 mixedGroup (by
    intro a ha
    simp only [mixedGroup, List.mem_cons, List.not_mem_nil, or_false] at ha
    rcases ha with rfl | rfl | rfl <;> exact plain_usable _) mixed_unmixed [1, 0] (by decide)
  refine ⟨as', h1, ?_⟩
  rw [h3 (by simp), h0]
  norm_num

/-- **C26 is false in general**: three linked accounts share a limit of 100. The first has
contributed 100 and the second has withdrawn 100 at the same time of year; the third may still
contribute 100, so that 200 are contributed in all. -/
theorem C26_offsetting_flows_reopen_room :
    ∃ (as as' : List (Acct ℚ)), (∀ a ∈ as, Reachable a) ∧ contribute 100 as 2 = .ok as' ∧
      groupTotal as = 100 ∧ groupTotal as' = 200 := by
  refine ⟨[plainAcct [.add 100 (.num (1 / 2))], plainAcct [.add (-100) (.num (1 / 2))],
    plainAcct []], [plainAcct [.add 100 (.num (1 / 2))], plainAcct [.add (-100) (.num (1 / 2))],
    { plainAcct [] with txns := [(1 / 2, 100)] }], ?_, ?_, by decide +kernel, by decide +kernel⟩
  · intro a ha
    simp only [List.mem_cons, List.not_mem_nil, or_false] at ha
    rcases ha with rfl | rfl | rfl <;> exact ⟨_, _, _, _, _, rfl⟩
  · have h : linkedMaxInflows { (plainLimits : Limits ℚ) with maxIn := .fin 100 } (plainAcct []) {}
        none (some [((plainAcct [.add 100 (.num (1 / 2))]).txns, none),
          ((plainAcct [.add (-100) (.num (1 / 2))]).txns, none)]) = .ok [(1 / 2, .fin 100)] := by
      decide +kernel
    unfold contribute
    simp only [List.getElem?_cons_succ, List.getElem?_cons_zero, List.eraseIdx_cons_succ,
      List.eraseIdx_cons_zero, List.map_cons, List.map_nil, h, ok_bind]
    have hw : whenConv (.num (1 / 2 : ℚ)) = .ok (1 / 2) := by decide +kernel
    have e := addTransaction_eq (a := plainAcct []) (v := 100) hw
    have hf : finVals [((1 / 2 : ℚ), (Ext.fin 100 : Ext ℚ))] = some [(1 / 2, 100)] := by
      decide +kernel
    rw [hf]
    have ht : Dict.set (plainAcct []).txns (1 / 2) (Dict.val (plainAcct []).txns (1 / 2) + 100)
        = [(1 / 2, 100)] := by decide +kernel
    simp only [List.foldlM_cons, List.foldlM_nil, e, ok_bind, except_pure, ht, List.set_cons_succ,
      List.set_cons_zero]

end Forecaster.Link
