import Verif.Lemmas.Recorded
import Mathlib.Data.List.Perm.Basic

/-!
# C81, and C12–C15 for ledgers whose properties read each other

`Acyclic c rank` (`Verif/Lemmas/Recorded.lean`): a getter reads only properties of lower rank,
and looks directly only at other years' entries of a history; `rank k < n` for all `k` says that
the recursion limit suffices.
-/

namespace Forecaster.Recorded

open Forecaster

variable {O κ V σ : Type} [DecidableEq O] [DecidableEq κ]

/-- The state after reading some properties, one after the other. -/
def reads (c : Sys O κ V σ) (n : ℕ) (s : St O κ V σ) (ks : List κ) : St O κ V σ :=
  ks.foldl (fun s k => (read c n k s).2) s

/-! ### Reading and recording -/

theorem read_eq {c : Sys O κ V σ} {rank : κ → ℕ} (hc : Acyclic c rank) {n : ℕ} {k : κ}
    (hn : rank k < n) (s : St O κ V σ) :
    read c n k s = (val c rank s k, grow c rank s (fills c rank s k)) := by
  have := read_grow hc s n k hn ∅ (closed_empty c rank s)
  rwa [grow_empty, Set.empty_union] at this

theorem reads_grow {c : Sys O κ V σ} {rank : κ → ℕ} (hc : Acyclic c rank) {n : ℕ}
    (hn : ∀ k, rank k < n) (s : St O κ V σ) (ks : List κ) : ∀ S, Closed c rank s S →
    Closed c rank s (S ∪ {q | ∃ k ∈ ks, q ∈ fills c rank s k}) ∧
    reads c n (grow c rank s S) ks =
      grow c rank s (S ∪ {q | ∃ k ∈ ks, q ∈ fills c rank s k}) := by
  induction ks with
  | nil => intro S hS; simp [reads, hS]
  | cons k ks ih =>
    intro S hS
    have h1 := read_grow hc s n k (hn k) S hS
    have h2 := ih _ (closed_union hc hS k)
    have e : S ∪ fills c rank s k ∪ {q | ∃ k ∈ ks, q ∈ fills c rank s k}
        = S ∪ {q | ∃ k' ∈ k :: ks, q ∈ fills c rank s k'} := by
      ext x
      simp only [Set.mem_union, Set.mem_ofPred_eq, List.mem_cons, exists_eq_or_imp]
      tauto
    rw [e] at h2
    refine ⟨h2.1, ?_⟩
    rw [← h2.2]
    simp only [reads, List.foldl_cons, h1]

theorem reads_eq {c : Sys O κ V σ} {rank : κ → ℕ} (hc : Acyclic c rank) {n : ℕ}
    (hn : ∀ k, rank k < n) (s : St O κ V σ) (ks : List κ) :
    Closed c rank s {q | ∃ k ∈ ks, q ∈ fills c rank s k} ∧
    reads c n s ks = grow c rank s {q | ∃ k ∈ ks, q ∈ fills c rank s k} := by
  have := reads_grow hc hn s ks ∅ (closed_empty c rank s)
  rwa [grow_empty, Set.empty_union] at this

/-- **C81** (looking does no harm). Reading properties, in any number and order, changes the value
of no property of any object. -/
theorem C81_reading_changes_no_value (c : Sys O κ V σ) (rank : κ → ℕ) (hc : Acyclic c rank) (n : ℕ)
    (hn : ∀ k, rank k < n) (s : St O κ V σ) (ks : List κ) (k : κ) :
    (read c n k (reads c n s ks)).1 = (read c n k s).1 := by
  obtain ⟨h1, h2⟩ := reads_eq hc hn s ks
  rw [h2, read_grow hc s n k (hn k) _ h1, read_eq hc (hn k)]

/-- **C81** (order of reading). Which values are cached afterwards depends on which properties were
read, not on the order nor on how often. -/
theorem C81_order_of_reading (c : Sys O κ V σ) (rank : κ → ℕ) (hc : Acyclic c rank) (n : ℕ)
    (hn : ∀ k, rank k < n) (s : St O κ V σ) (ks ks' : List κ) (h : ∀ k, k ∈ ks ↔ k ∈ ks') :
    reads c n s ks = reads c n s ks' := by
  rw [(reads_eq hc hn s ks).2, (reads_eq hc hn s ks').2]
  congr 1
  ext q
  simp only [Set.mem_ofPred_eq, h]

theorem recordAll_eq {c : Sys O κ V σ} {rank : κ → ℕ} (hc : Acyclic c rank) {n : ℕ}
    (hn : ∀ k, rank k < n) (s : St O κ V σ) (ks : List κ) :
    ((∀ k ∈ ks, ∃ v, (read c n k s).1 = .ok v) →
      recordAll c n ks s = (none, grow c rank s (recordsAll c rank s ks))) ∧
    ((∃ k ∈ ks, ∃ e, (read c n k s).1 = .error e) →
      ∃ k ∈ ks, ∃ e, (read c n k s).1 = .error e ∧ (recordAll c n ks s).1 = some e) := by
  have := recordAll_grow hc s ks (fun k _ => hn k) (closed_empty c rank s)
  rw [grow_empty, Set.empty_union] at this
  simp only [read_eq hc (hn _)]
  exact this

theorem all_or_some (c : Sys O κ V σ) (n : ℕ) (s : St O κ V σ) (ks : List κ) :
    (∀ k ∈ ks, ∃ v, (read c n k s).1 = .ok v) ∨ ∃ k ∈ ks, ∃ e, (read c n k s).1 = .error e := by
  by_cases h : ∃ k ∈ ks, ∃ e, (read c n k s).1 = .error e
  · exact .inr h
  · refine .inl fun k hk => ?_
    cases hv : (read c n k s).1 with
    | ok v => exact ⟨v, rfl⟩
    | error e => exact absurd ⟨k, hk, e, hv⟩ h

/-- **C81** (when a year can be closed). `next_year()` completes exactly if every recorded property
of the object has a value; otherwise it raises what one of them raises. -/
theorem C81_next_year_completes (c : Sys O κ V σ) (rank : κ → ℕ) (hc : Acyclic c rank) (n : ℕ)
    (hn : ∀ k, rank k < n) (s : St O κ V σ) (o : O) :
    ((nextYear c n o s).1 = none ↔ ∀ k ∈ c.props o, ∃ v, (read c n k s).1 = .ok v) ∧
    (∀ e, (nextYear c n o s).1 = some e → ∃ k ∈ c.props o, (read c n k s).1 = .error e) := by
  obtain ⟨h1, h2⟩ := recordAll_eq hc hn s (c.props o)
  rcases all_or_some c n s (c.props o) with h | h
  · have e1 := h1 h
    simp only [nextYear, e1]
    exact ⟨⟨fun _ => h, fun _ => trivial⟩, fun e he => by cases he⟩
  · obtain ⟨k, hk, e, he, hr⟩ := h2 h
    have e1 : (nextYear c n o s).1 = some e := by
      simp only [nextYear]
      revert hr
      generalize recordAll c n (c.props o) s = p
      rcases p with ⟨_ | e', s'⟩
      · intro h; cases h
      · intro h; exact h
    rw [e1]
    refine ⟨⟨fun h => (by cases h), fun h => ?_⟩, fun e' he' => ?_⟩
    · obtain ⟨v, hv⟩ := h k hk
      rw [hv] at he; cases he
    · cases he'; exact ⟨k, hk, he⟩

theorem read_props (c : Sys O κ V σ) (p : O → List κ) :
    ∀ n, read { c with props := p } n = read c n := by
  intro n
  induction n with
  | zero => rfl
  | succ n ih =>
    funext k s
    simp only [read, ih]
    rfl

theorem recordAll_props (c : Sys O κ V σ) (p : O → List κ) (n : ℕ) (ks : List κ) :
    ∀ s, recordAll { c with props := p } n ks s = recordAll c n ks s := by
  induction ks with
  | nil => intro s; rfl
  | cons k ks ih =>
    intro s
    have : recordOne { c with props := p } n k s = recordOne c n k s := by
      simp only [recordOne, read_props]
      rfl
    simp only [recordAll, this, ih]

/-- **C81** (order of recording). Python iterates over a *set* of properties when it closes a year.
The order does not matter: if the year can be closed in one order it can be closed in every other,
with the same result. -/
theorem C81_order_of_recording (c : Sys O κ V σ) (rank : κ → ℕ) (hc : Acyclic c rank) (n : ℕ)
    (hn : ∀ k, rank k < n) (s : St O κ V σ) (o : O) (p : O → List κ)
    (hp : ∀ o, (p o).Perm (c.props o)) (h : (nextYear c n o s).1 = none) :
    nextYear { c with props := p } n o s = nextYear c n o s := by
  have hall := (C81_next_year_completes c rank hc n hn s o).1.1 h
  have e1 := (recordAll_eq hc hn s (c.props o)).1 hall
  have e2 := (recordAll_eq hc hn s (p o)).1 fun k hk => hall k ((hp o).mem_iff.1 hk)
  have e3 : recordsAll c rank s (p o) = recordsAll c rank s (c.props o) := by
    ext q
    simp only [recordsAll, Set.mem_ofPred_eq, (hp o).mem_iff]
  simp only [nextYear, recordAll_props, e1, e2, e3]

/-- **C81** (what is recorded). A closed year has on record, for each property of the object, the
value the property had before; only the object's year changes; and whatever is on record for
anything was so before or is the value it had. -/
theorem C81_records_the_values (c : Sys O κ V σ) (rank : κ → ℕ) (hc : Acyclic c rank) (n : ℕ)
    (hn : ∀ k, rank k < n) (s : St O κ V σ) (o : O) (h : (nextYear c n o s).1 = none) :
    let t := (nextYear c n o s).2
    (∀ k ∈ c.props o, ∃ v, (read c n k s).1 = .ok v ∧
      Dict.get? (t.hist k) (s.year (c.obj k)) = some v) ∧
    (∀ k y, y ≠ s.year (c.obj k) → Dict.get? (t.hist k) y = Dict.get? (s.hist k) y) ∧
    (∀ k v, Dict.get? (t.hist k) (s.year (c.obj k)) = some v → (read c n k s).1 = .ok v) ∧
    (∀ k v, Dict.get? (s.hist k) (s.year (c.obj k)) = some v →
      Dict.get? (t.hist k) (s.year (c.obj k)) = some v) ∧
    (∀ o', t.year o' = if o' = o then s.year o + 1 else s.year o') ∧
    t.world = s.world ∧ t.inputs = s.inputs := by
  intro t
  have hall := (C81_next_year_completes c rank hc n hn s o).1.1 h
  have e1 := (recordAll_eq hc hn s (c.props o)).1 hall
  have et : t = (grow c rank s (recordsAll c rank s (c.props o))).advance o := by
    show (nextYear c n o s).2 = _
    simp only [nextYear, e1]
  have ek : ∀ k, t.hist k = (grow c rank s (recordsAll c rank s (c.props o))).hist k := by
    intro k; rw [et]; rfl
  refine ⟨?_, ?_, ?_, ?_, ?_, ?_, ?_⟩
  · intro k hk
    obtain ⟨v, hv⟩ := hall k hk
    refine ⟨v, hv, ?_⟩
    rw [ek]
    rw [read_eq hc (hn k)] at hv
    obtain ⟨g1, _, g3, _⟩ := now_grow c rank s (recordsAll c rank s (c.props o)) k
    cases hnow : s.now c k with
    | some w =>
      rw [(val_some hnow).1] at hv
      cases hv
      exact g1 v hnow
    | none => exact g3 hnow ⟨k, hk, .inl rfl⟩ v hv
  · intro k y hy
    rw [ek]
    exact past_grow c rank s _ k hy
  · intro k v hv
    rw [ek] at hv
    rw [read_eq hc (hn k)]
    show val c rank s k = _
    obtain ⟨g1, g2, g3, g4⟩ := now_grow c rank s (recordsAll c rank s (c.props o)) k
    have hv' : (grow c rank s (recordsAll c rank s (c.props o))).now c k = some v := hv
    cases hnow : s.now c k with
    | some w =>
      rw [g1 w hnow] at hv'
      rw [(val_some hnow).1, Option.some.inj hv']
    | none =>
      by_cases hk : k ∈ recordsAll c rank s (c.props o)
      · cases hval : val c rank s k with
        | ok w => rw [g3 hnow hk w hval] at hv'; rw [Option.some.inj hv']
        | error e => rw [g4 hnow e hval] at hv'; cases hv'
      · rw [g2 hnow hk] at hv'; cases hv'
  · intro k v hv
    rw [ek]
    exact (now_grow c rank s _ k).1 v hv
  · intro o'
    rw [et]
    rfl
  · rw [et]; rfl
  · rw [et]; rfl

/-- **C81** (closing one object's year). The values of properties that have nothing to do with an
object (`D`: a set of properties of other objects, whose getters stay within `D` and do not look at
the object's year) are the same before and after its year is closed. -/
theorem C81_other_objects (c : Sys O κ V σ) (rank : κ → ℕ) (hc : Acyclic c rank) (n : ℕ)
    (hn : ∀ k, rank k < n) (s : St O κ V σ) (o : O) (h : (nextYear c n o s).1 = none) (D : κ → Prop)
    (hobj : ∀ k, D k → c.obj k ≠ o) (hin : ∀ k, D k → (c.fget k s.year s.world).Within D)
    (hget : ∀ k, D k → ∀ y, c.fget k (fun o' => if o' = o then y else s.year o') s.world
      = c.fget k s.year s.world) (k : κ) (hk : D k) :
    (read c n k (nextYear c n o s).2).1 = (read c n k s).1 := by
  have hall := (C81_next_year_completes c rank hc n hn s o).1.1 h
  have e1 := (recordAll_eq hc hn s (c.props o)).1 hall
  have et : (nextYear c n o s).2 = (grow c rank s (recordsAll c rank s (c.props o))).advance o := by
    simp only [nextYear, e1]
  rw [read_eq hc (hn k), read_eq hc (hn k), et]
  show val c rank _ k = val c rank s k
  rw [val_agree (D := D) (s := grow c rank s (recordsAll c rank s (c.props o))) _ hk,
    val_grow hc s (closed_recordsAll hc s _)]
  refine ⟨fun _ _ => rfl, fun q hq => ?_, fun q hq => hget q hq _, hin⟩
  show (if c.obj q = o then _ else s.year (c.obj q)) = s.year (c.obj q)
  rw [if_neg (hobj q hq)]

/-! ### Any program -/

/-- What a sequence of reads and recordings may do: entries for the current year are added. -/
structure Grows (c : Sys O κ V σ) (s t : St O κ V σ) : Prop where
  year : t.year = s.year
  inputs : t.inputs = s.inputs
  world : t.world = s.world
  past : ∀ k y, y ≠ s.year (c.obj k) → Dict.get? (t.hist k) y = Dict.get? (s.hist k) y
  stays : ∀ k v, s.now c k = some v → t.now c k = some v
  wf : (∀ k, Dict.WF (s.hist k)) → ∀ k, Dict.WF (t.hist k)

theorem Grows.refl (c : Sys O κ V σ) (s : St O κ V σ) : Grows c s s :=
  ⟨rfl, rfl, rfl, fun _ _ _ => rfl, fun _ _ h => h, fun h => h⟩

theorem Grows.trans {c : Sys O κ V σ} {s t u : St O κ V σ} (h : Grows c s t) (g : Grows c t u) :
    Grows c s u :=
  ⟨g.year.trans h.year, g.inputs.trans h.inputs, g.world.trans h.world,
    fun k y hy => (g.past k y (by rw [h.year]; exact hy)).trans (h.past k y hy),
    fun k v hv => g.stays k v (h.stays k v hv), fun w => g.wf (h.wf w)⟩

theorem Grows.record {c : Sys O κ V σ} {s t : St O κ V σ} (h : Grows c s t) {k : κ} (v : V)
    (hk : s.now c k = none) : Grows c s (t.record c k v) := by
  refine ⟨h.year, h.inputs, h.world, ?_, ?_, ?_⟩
  · intro q y hy
    simp only [St.record]
    split
    · rename_i hq
      subst hq
      rw [Dict.get?_set_ne _ _ (by rw [h.year]; exact Ne.symm hy)]
      exact h.past q y hy
    · exact h.past q y hy
  · intro q w hq
    have hqk : q ≠ k := by rintro rfl; rw [hk] at hq; cases hq
    simp only [St.now, St.record, if_neg hqk]
    exact h.stays q w hq
  · intro hw q
    simp only [St.record]
    split
    · exact Dict.wf_set (h.wf hw _) _ _
    · exact h.wf hw q

theorem now_record (c : Sys O κ V σ) (s : St O κ V σ) (k : κ) (v : V) :
    (s.record c k v).now c k = some v := by
  simp only [St.now, St.record, if_true, Dict.get?_set_self]

theorem read_grows (c : Sys O κ V σ) : ∀ n k s, Grows c s (read c n k s).2 ∧
    (∀ v, (read c n k s).1 = .ok v → c.cached k = true → (read c n k s).2.now c k = some v) ∧
    (∀ v, s.now c k = some v → read c (n + 1) k s = (.ok v, s)) := by
  intro n
  induction n with
  | zero =>
    intro k s
    exact ⟨Grows.refl c s, fun v h => (by cases h), fun v h => (by simp only [read, h])⟩
  | succ n ih =>
    intro k s
    refine ⟨?_, ?_, fun v h => by simp only [read, h]⟩
    all_goals
      have run : ∀ (P : Prog κ V) (s : St O κ V σ), Grows c s (exec (read c n) P s).2 := by
        intro P
        induction P with
        | done r => intro s; exact Grows.refl c s
        | ask q next ihP =>
          intro s
          simp only [exec]
          have h1 := (ih q s).1
          cases hr : read c n q s with
          | mk r s' =>
            rw [hr] at h1
            cases r with
            | ok v => exact h1.trans (ihP v s')
            | error e => exact h1
        | past q y next ihP => intro s; exact ihP _ s
      simp only [read]
      cases hn : s.now c k with
      | some v => first
        | exact Grows.refl c s
        | (intro w hw _; cases hw; exact hn)
      | none =>
        have h1 := run (c.fget k s.year s.world) s
        simp only
        cases hr : exec (read c n) (c.fget k s.year s.world) s with
        | mk r s' =>
          rw [hr] at h1
          cases r with
          | error e => first
            | exact h1
            | (intro w hw; cases hw)
          | ok v => first
            | (simp only [keep]
               split
               · exact h1.record v hn
               · exact h1)
            | (intro w hw hcache
               simp only [keep] at hw ⊢
               cases hw
               rw [if_pos hcache]
               exact now_record c s' k v)

theorem recordAll_grows (c : Sys O κ V σ) (n : ℕ) (ks : List κ) : ∀ s,
    Grows c s (recordAll c n ks s).2 ∧
    ((recordAll c n ks s).1 = none → ∀ k ∈ ks, ∃ v, (recordAll c n ks s).2.now c k = some v) := by
  induction ks with
  | nil => intro s; exact ⟨Grows.refl c s, fun _ k hk => by cases hk⟩
  | cons k ks ih =>
    intro s
    have one : Grows c s (recordOne c n k s).2 ∧
        ((recordOne c n k s).1 = none → ∃ v, (recordOne c n k s).2.now c k = some v) := by
      simp only [recordOne]
      cases hn : s.now c k with
      | some v => exact ⟨Grows.refl c s, fun _ => ⟨v, hn⟩⟩
      | none =>
        have h1 := (read_grows c n k s).1
        simp only
        cases hr : read c n k s with
        | mk r s' =>
          rw [hr] at h1
          cases r with
          | ok v => exact ⟨h1.record v hn, fun _ => ⟨v, now_record c s' k v⟩⟩
          | error e => exact ⟨h1, fun h => by cases h⟩
    simp only [recordAll]
    cases hr : recordOne c n k s with
    | mk r s' =>
      rw [hr] at one
      cases r with
      | some e => exact ⟨one.1, fun h => by cases h⟩
      | none =>
        refine ⟨one.1.trans (ih s').1, fun h q hq => ?_⟩
        rcases List.mem_cons.1 hq with rfl | hq
        · obtain ⟨v, hv⟩ := one.2 rfl
          exact ⟨v, (ih s').1.stays q v hv⟩
        · exact (ih s').2 h q hq

/-- What holds after any program: years only increase, histories are dicts, inputs are on record,
and no year is missing. -/
structure Inv (c : Sys O κ V σ) (year0 : O → ℤ) (inputs : κ → Option (Dict ℤ V))
    (s : St O κ V σ) : Prop where
  le : ∀ o, year0 o ≤ s.year o
  wf : ∀ k, Dict.WF (s.hist k)
  inp : s.inputs = inputs
  keep : ∀ k d y v, inputs k = some d → Dict.get? d y = some v → Dict.get? (s.hist k) y = some v
  past : ∀ o, ∀ k ∈ c.props o, ∀ y, year0 o ≤ y → y < s.year o → ∃ v, Dict.get? (s.hist k) y = some v
  only : ∀ k y v, Dict.get? (s.hist k) y = some v →
    (year0 (c.obj k) ≤ y ∧ y ≤ s.year (c.obj k)) ∨ ∃ d, inputs k = some d ∧ y ∈ Dict.keys d

/-- Every recorded property belongs to the object that records it. -/
def Owned (c : Sys O κ V σ) : Prop := ∀ o, ∀ k ∈ c.props o, c.obj k = o

theorem Inv.grows {c : Sys O κ V σ} (hown : Owned c) {year0 : O → ℤ}
    {inputs : κ → Option (Dict ℤ V)} {s t : St O κ V σ}
    (h : Inv c year0 inputs s) (g : Grows c s t) : Inv c year0 inputs t := by
  refine ⟨fun o => by rw [g.year]; exact h.le o, g.wf h.wf, g.inputs.trans h.inp, ?_, ?_, ?_⟩
  · intro k d y v hd hv
    have := h.keep k d y v hd hv
    by_cases hy : y = s.year (c.obj k)
    · subst hy
      have := g.stays k v this
      rwa [St.now, g.year] at this
    · rw [g.past k y hy]; exact this
  · intro o k hk y h1 h2
    rw [g.year] at h2
    obtain ⟨v, hv⟩ := h.past o k hk y h1 h2
    have hne : y ≠ s.year (c.obj k) := by rw [hown o k hk]; omega
    exact ⟨v, by rw [g.past k y hne]; exact hv⟩
  · intro k y v hv
    rw [g.year]
    by_cases hy : y = s.year (c.obj k)
    · exact .inl ⟨by rw [hy]; exact h.le _, le_of_eq hy⟩
    · rw [g.past k y hy] at hv; exact h.only k y v hv

theorem inv_init (c : Sys O κ V σ) (year0 : O → ℤ) (inputs : κ → Option (Dict ℤ V))
    (hin : ∀ k d, inputs k = some d → Dict.WF d) (w : σ) :
    Inv c year0 inputs (init year0 inputs w) := by
  have hh : ∀ k, (∃ d, inputs k = some d ∧ (init year0 inputs w).hist k = d) ∨
      (inputs k = none ∧ (init year0 inputs w).hist k = []) := by
    intro k
    simp only [init]
    cases hk : inputs k with
    | none => exact .inr ⟨rfl, rfl⟩
    | some d => exact .inl ⟨d, rfl, Dict.update_nil_left (hin k d hk)⟩
  refine ⟨fun o => le_rfl, ?_, rfl, ?_, ?_, ?_⟩
  · intro k
    rcases hh k with ⟨d, h1, h2⟩ | ⟨_, h2⟩
    · rw [h2]; exact hin k d h1
    · rw [h2]; exact Dict.wf_nil
  · intro k d y v hd hv
    rcases hh k with ⟨d', h1, h2⟩ | ⟨h1, h2⟩
    · rw [h2]; rw [hd] at h1; cases h1; exact hv
    · rw [hd] at h1; cases h1
  · intro o k _ y h1 h2
    exact absurd h2 (by simp only [init]; omega)
  · intro k y v hv
    rcases hh k with ⟨d, h1, h2⟩ | ⟨h1, h2⟩
    · rw [h2] at hv
      exact .inr ⟨d, h1, Dict.mem_keys_iff.2 ⟨v, hv⟩⟩
    · rw [h2] at hv; cases hv

/-- Assigning and deleting: an entry for the current year that is not an input changes. -/
structure Edits (c : Sys O κ V σ) (s t : St O κ V σ) (k : κ) : Prop where
  year : t.year = s.year
  inputs : t.inputs = s.inputs
  free : s.isInput c k = false
  others : ∀ q, q ≠ k → t.hist q = s.hist q
  past : ∀ y, y ≠ s.year (c.obj k) → Dict.get? (t.hist k) y = Dict.get? (s.hist k) y
  wf : Dict.WF (t.hist k)

theorem Inv.edits {c : Sys O κ V σ} (hown : Owned c) {year0 : O → ℤ}
    {inputs : κ → Option (Dict ℤ V)} {s t : St O κ V σ}
    (h : Inv c year0 inputs s) {k : κ} (g : Edits c s t k) : Inv c year0 inputs t := by
  have hp : ∀ q y, (q ≠ k ∨ y ≠ s.year (c.obj q)) →
      Dict.get? (t.hist q) y = Dict.get? (s.hist q) y := by
    intro q y hq
    by_cases hqk : q = k
    · subst hqk; exact g.past y (hq.resolve_left (fun h => h rfl))
    · rw [g.others q hqk]
  refine ⟨fun o => by rw [g.year]; exact h.le o, ?_, g.inputs.trans h.inp, ?_, ?_, ?_⟩
  · intro q
    by_cases hqk : q = k
    · subst hqk; exact g.wf
    · rw [g.others q hqk]; exact h.wf q
  · intro q d y v hd hv
    rw [hp q y]
    · exact h.keep q d y v hd hv
    · by_contra hcon
      push Not at hcon
      obtain ⟨rfl, hy⟩ := hcon
      have := g.free
      simp only [St.isInput, h.inp, hd, ← hy, hv] at this
      cases this
  · intro o q hq y h1 h2
    rw [g.year] at h2
    obtain ⟨v, hv⟩ := h.past o q hq y h1 h2
    exact ⟨v, by rw [hp q y (.inr (by rw [hown o q hq]; omega))]; exact hv⟩
  · intro q y v hv
    rw [g.year]
    by_cases hy : y = s.year (c.obj q)
    · exact .inl ⟨by rw [hy]; exact h.le _, le_of_eq hy⟩
    · rw [hp q y (.inr hy)] at hv; exact h.only q y v hv

theorem set_edits (c : Sys O κ V σ) {s : St O κ V σ} (hs : ∀ k, Dict.WF (s.hist k)) (k : κ) (v : V) :
    set c k v s = s ∨ Edits c s (set c k v s) k := by
  unfold set
  cases h : s.isInput c k with
  | true => exact .inl rfl
  | false =>
    refine .inr ⟨rfl, rfl, h, fun q hq => ?_, fun y hy => ?_, ?_⟩
    · simp only [Bool.false_eq_true, if_false, St.record, if_neg hq]
    · simp only [Bool.false_eq_true, if_false, St.record, if_true]
      rw [Dict.get?_set_ne _ _ (Ne.symm hy)]
    · simp only [Bool.false_eq_true, if_false, St.record, if_true]
      exact Dict.wf_set (hs k) _ _

theorem delete_edits (c : Sys O κ V σ) {s : St O κ V σ} (hs : ∀ k, Dict.WF (s.hist k)) (k : κ) :
    delete c k s = s ∨ Edits c s (delete c k s) k := by
  unfold delete
  cases h : s.isInput c k with
  | true => exact .inl rfl
  | false =>
    refine .inr ⟨rfl, rfl, h, fun q hq => ?_, fun y hy => ?_, ?_⟩
    · simp only [Bool.false_eq_true, if_false, if_neg hq]
    · simp only [Bool.false_eq_true, if_false, if_true]
      rw [Dict.get?_del (hs k), if_neg (Ne.symm hy)]
    · simp only [Bool.false_eq_true, if_false, if_true]
      exact Dict.wf_del (hs k) _

/-- One step: what was on record for earlier years stays, no year goes back, the invariant holds. -/
theorem step_inv {c : Sys O κ V σ} (hown : Owned c) {year0 : O → ℤ}
    {inputs : κ → Option (Dict ℤ V)} (n : ℕ) {s : St O κ V σ} (h : Inv c year0 inputs s)
    (op : Op O κ V σ) :
    Inv c year0 inputs (step c n s op) ∧ (∀ o, s.year o ≤ (step c n s op).year o) ∧
    ∀ k y, y < s.year (c.obj k) → Dict.get? ((step c n s op).hist k) y = Dict.get? (s.hist k) y := by
  have edit : ∀ {t k}, Inv c year0 inputs s → (t = s ∨ Edits c s t k) →
      Inv c year0 inputs t ∧ (∀ o, s.year o ≤ t.year o) ∧
      ∀ q y, y < s.year (c.obj q) → Dict.get? (t.hist q) y = Dict.get? (s.hist q) y := by
    rintro t k h (rfl | g)
    · exact ⟨h, fun _ => le_rfl, fun _ _ _ => rfl⟩
    · refine ⟨h.edits hown g, fun o => by rw [g.year], fun q y hy => ?_⟩
      by_cases hq : q = k
      · subst hq; exact g.past y (by omega)
      · rw [g.others q hq]
  cases op with
  | read k =>
    have g := (read_grows c n k s).1
    exact ⟨h.grows hown g, fun o => by rw [step, g.year], fun q y hy => g.past q y (by omega)⟩
  | set k v => exact edit h (set_edits c h.wf k v)
  | delete k => exact edit h (delete_edits c h.wf k)
  | poke f => exact ⟨⟨h.le, h.wf, h.inp, h.keep, h.past, h.only⟩, fun _ => le_rfl, fun _ _ _ => rfl⟩
  | clearCache o =>
    simp only [step, clearCache]
    generalize (c.props o).filter (fun k => c.cached k) = l
    have key : ∀ (l : List κ) (t : St O κ V σ), Inv c year0 inputs t →
        Inv c year0 inputs (l.foldl (fun s k => delete c k s) t) ∧
        (∀ o, t.year o ≤ (l.foldl (fun s k => delete c k s) t).year o) ∧
        ∀ q y, y < t.year (c.obj q) →
          Dict.get? ((l.foldl (fun s k => delete c k s) t).hist q) y = Dict.get? (t.hist q) y := by
      intro l
      induction l with
      | nil => intro t ht; exact ⟨ht, fun _ => le_rfl, fun _ _ _ => rfl⟩
      | cons k l ih =>
        intro t ht
        rcases delete_edits c ht.wf k with e | g
        · simp only [List.foldl_cons, e]
          exact ih t ht
        · obtain ⟨i1, i2, i3⟩ := ih _ (ht.edits hown g)
          refine ⟨i1, fun o => by rw [← g.year]; exact i2 o, fun q y hy => ?_⟩
          refine (i3 q y (by rw [g.year]; exact hy)).trans ?_
          by_cases hq : q = k
          · subst hq; exact g.past y (by omega)
          · rw [g.others q hq]
    exact key l s h
  | nextYear o =>
    have g := (recordAll_grows c n (c.props o) s).1
    have hr := (recordAll_grows c n (c.props o) s).2
    have hg := h.grows hown g
    simp only [step, nextYear]
    cases hq : recordAll c n (c.props o) s with
    | mk r t =>
      rw [hq] at g hr hg
      cases r with
      | some e => exact ⟨hg, fun o => by rw [g.year], fun q y hy => g.past q y (by omega)⟩
      | none =>
        have hyr : ∀ o', t.year o' ≤ (t.advance o).year o' := by
          intro o'
          simp only [St.advance]
          split
          · rename_i e; subst e; omega
          · exact le_rfl
        refine ⟨⟨fun o' => (hg.le o').trans (hyr o'), hg.wf, hg.inp, hg.keep, ?_, ?_⟩,
          fun o' => by
            have := hyr o'
            rw [← g.year]; exact this, fun q y hy => g.past q y (by omega)⟩
        · intro o' k hk y h1 h2
          by_cases hlt : y < t.year o'
          · exact hg.past o' k hk y h1 hlt
          · simp only [St.advance] at h2
            split at h2
            · rename_i e
              subst e
              have hy : y = t.year o' := by omega
              obtain ⟨v, hv⟩ := hr rfl k hk
              refine ⟨v, ?_⟩
              rw [St.now, hown o' k hk, ← hy] at hv
              exact hv
            · omega
        · intro k y v hv
          rcases hg.only k y v hv with ⟨h1, h2⟩ | h
          · exact .inl ⟨h1, h2.trans (hyr _)⟩
          · exact .inr h

theorem run_inv {c : Sys O κ V σ} (hown : Owned c) {year0 : O → ℤ}
    {inputs : κ → Option (Dict ℤ V)} (n : ℕ) (ops : List (Op O κ V σ)) : ∀ {s : St O κ V σ},
    Inv c year0 inputs s →
    Inv c year0 inputs (run c n s ops) ∧ (∀ o, s.year o ≤ (run c n s ops).year o) ∧
    ∀ k y, y < s.year (c.obj k) → Dict.get? ((run c n s ops).hist k) y = Dict.get? (s.hist k) y := by
  induction ops with
  | nil => intro s h; exact ⟨h, fun _ => le_rfl, fun _ _ _ => rfl⟩
  | cons op ops ih =>
    intro s h
    obtain ⟨a1, a2, a3⟩ := step_inv hown n h op
    obtain ⟨b1, b2, b3⟩ := ih a1
    exact ⟨b1, fun o => (a2 o).trans (b2 o),
      fun k y hy => (b3 k y (lt_of_lt_of_le hy (a2 _))).trans (a3 k y hy)⟩

/-- **C12** (properties that read each other). After any program, every recorded property of every
object has an entry for each year from the object's first to the one before its current one; and
entries only for the years up to the current one and for years given as inputs. -/
theorem C12_system_gap_free (c : Sys O κ V σ) (hown : Owned c) (n : ℕ) (year0 : O → ℤ)
    (inputs : κ → Option (Dict ℤ V)) (hin : ∀ k d, inputs k = some d → Dict.WF d) (w : σ)
    (ops : List (Op O κ V σ)) :
    let s := run c n (init year0 inputs w) ops
    (∀ o, ∀ k ∈ c.props o, ∀ y, year0 o ≤ y → y < s.year o →
      ∃ v, Dict.get? (s.hist k) y = some v) ∧
    (∀ k y v, Dict.get? (s.hist k) y = some v →
      (year0 (c.obj k) ≤ y ∧ y ≤ s.year (c.obj k)) ∨ ∃ d, inputs k = some d ∧ y ∈ Dict.keys d) := by
  intro s
  have h := (run_inv hown n ops (inv_init c year0 inputs hin w)).1
  exact ⟨h.past, h.only⟩

/-- **C13** (properties that read each other). An input is what the property reads as in its year,
and what its history says at all times. -/
theorem C13_system_inputs (c : Sys O κ V σ) (hown : Owned c) (n : ℕ) (year0 : O → ℤ)
    (inputs : κ → Option (Dict ℤ V)) (hin : ∀ k d, inputs k = some d → Dict.WF d) (w : σ)
    (ops : List (Op O κ V σ)) (k : κ) (d : Dict ℤ V) (y : ℤ) (v : V) (hd : inputs k = some d)
    (hv : Dict.get? d y = some v) :
    let s := run c n (init year0 inputs w) ops
    (s.year (c.obj k) = y → read c (n + 1) k s = (.ok v, s)) ∧ Dict.get? (s.hist k) y = some v := by
  intro s
  have h := (run_inv hown n ops (inv_init c year0 inputs hin w)).1
  have hk := h.keep k d y v hd hv
  refine ⟨fun hy => ?_, hk⟩
  exact (read_grows c n k s).2.2 v (by rw [St.now, hy]; exact hk)

/-- **C14** (properties that read each other). Whatever happens to any object, what is on record for
a year that an object has left stays as it is. -/
theorem C14_system_past_immutable (c : Sys O κ V σ) (hown : Owned c) (n : ℕ) (year0 : O → ℤ)
    (inputs : κ → Option (Dict ℤ V)) (hin : ∀ k d, inputs k = some d → Dict.WF d) (w : σ)
    (ops later : List (Op O κ V σ)) (k : κ) (y : ℤ) :
    let s := run c n (init year0 inputs w) ops
    y < s.year (c.obj k) → Dict.get? ((run c n s later).hist k) y = Dict.get? (s.hist k) y := by
  intro s hy
  have h := (run_inv hown n ops (inv_init c year0 inputs hin w)).1
  exact (run_inv hown n later h).2.2 k y hy

/-- What leaves the value of `k` alone. -/
def Quiet (c : Sys O κ V σ) (k : κ) : Op O κ V σ → Prop
  | .set q _ => q ≠ k
  | .delete q => q ≠ k
  | .nextYear o => o ≠ c.obj k
  | .clearCache o => k ∉ c.props o
  | _ => True

/-- C15 below, for a state that satisfies the invariant. -/
theorem cached_stable (c : Sys O κ V σ) (hown : Owned c) (n : ℕ) (year0 : O → ℤ)
    (inputs : κ → Option (Dict ℤ V)) (s : St O κ V σ) (hs : Inv c year0 inputs s) (k : κ)
    (hc : c.cached k = true) (v : V) (hv : (read c n k s).1 = .ok v) (ops : List (Op O κ V σ))
    (hq : ∀ op ∈ ops, Quiet c k op) :
    let s' := run c n (read c n k s).2 ops
    read c (n + 1) k s' = (.ok v, s') := by
  intro s'
  have h0 := (read_grows c n k s).2.1 v hv hc
  have hi := hs.grows hown (read_grows c n k s).1
  have key : ∀ (ops : List (Op O κ V σ)) (t : St O κ V σ), Inv c year0 inputs t →
      t.now c k = some v → (∀ op ∈ ops, Quiet c k op) → (run c n t ops).now c k = some v := by
    intro ops
    induction ops with
    | nil => intro t _ h _; exact h
    | cons op ops ih =>
      intro t ht h hq
      refine ih _ (step_inv hown n ht op).1 ?_ fun op' h' => hq op' (List.mem_cons_of_mem _ h')
      have hop := hq op List.mem_cons_self
      have edit : ∀ {u q}, (u = t ∨ Edits c t u q) → q ≠ k → u.now c k = some v := by
        rintro u q (rfl | g) hne
        · exact h
        · rw [St.now, g.year, g.others k (Ne.symm hne)]; exact h
      cases op with
      | read q => exact (read_grows c n q t).1.stays k v h
      | set q x => exact edit (set_edits c ht.wf q x) hop
      | delete q => exact edit (delete_edits c ht.wf q) hop
      | poke f => exact h
      | clearCache o =>
        have hno : ∀ q ∈ (c.props o).filter (fun k => c.cached k), q ≠ k := by
          rintro q hm rfl; exact hop (List.mem_filter.1 hm).1
        simp only [step, clearCache]
        revert hno
        generalize (c.props o).filter (fun k => c.cached k) = l
        intro hno
        clear hop hq edit
        induction l generalizing t with
        | nil => exact h
        | cons q l ihl =>
          simp only [List.foldl_cons]
          rcases delete_edits c ht.wf q with e | g
          · rw [e]; exact ihl t ht h fun x hx => hno x (List.mem_cons_of_mem _ hx)
          · refine ihl _ (ht.edits hown g) ?_ fun x hx => hno x (List.mem_cons_of_mem _ hx)
            rw [St.now, g.year, g.others k (Ne.symm (hno q List.mem_cons_self))]
            exact h
      | nextYear o =>
        have g := (recordAll_grows c n (c.props o) t).1
        have h1 := g.stays k v h
        simp only [step, nextYear]
        cases hr : recordAll c n (c.props o) t with
        | mk r u =>
          rw [hr] at h1
          cases r with
          | some e => exact h1
          | none =>
            simp only [St.now, St.advance, if_neg (Ne.symm hop)]
            exact h1
  exact (read_grows c n k s').2.2 v (key ops _ hi h0 hq)

/-- **C15** (properties that read each other). Once a cached property has been read, it reads the
same, and reading it does nothing, until it is assigned or deleted or its object's caches are
cleared or its year closed: whatever else happens, to other objects too. -/
theorem C15_system_cached_stable (c : Sys O κ V σ) (hown : Owned c) (n : ℕ) (year0 : O → ℤ)
    (inputs : κ → Option (Dict ℤ V)) (hin : ∀ k d, inputs k = some d → Dict.WF d) (w : σ)
    (before ops : List (Op O κ V σ)) (k : κ) (hc : c.cached k = true) (v : V) :
    let s := run c n (init year0 inputs w) before
    (read c n k s).1 = .ok v → (∀ op ∈ ops, Quiet c k op) →
    let s' := run c n (read c n k s).2 ops
    read c (n + 1) k s' = (.ok v, s') := by
  intro s hv hq
  exact cached_stable c hown n year0 inputs s
    (run_inv hown n before (inv_init c year0 inputs hin w)).1 k hc v hv ops hq

/-- **C13** (properties that read each other). After any program, asking for a property's history
does what reading the property does. If that raises, so does this; if it returns `v`, the history
says `v` for the object's current year and what is on record for every other year: so, for a
property of the object, there is an entry for each year from the first to the current one. -/
theorem C13_system_history (c : Sys O κ V σ) (hown : Owned c) (n : ℕ) (year0 : O → ℤ)
    (inputs : κ → Option (Dict ℤ V)) (hin : ∀ k d, inputs k = some d → Dict.WF d) (w : σ)
    (ops : List (Op O κ V σ)) (k : κ) :
    let s := run c n (init year0 inputs w) ops
    (history c n k s).2 = (read c n k s).2 ∧
    (∀ e, (read c n k s).1 = .error e → (history c n k s).1 = .error e) ∧
    (∀ v, (read c n k s).1 = .ok v → ∃ d, (history c n k s).1 = .ok d ∧
      Dict.get? d (s.year (c.obj k)) = some v ∧
      (∀ y, y ≠ s.year (c.obj k) → Dict.get? d y = Dict.get? (s.hist k) y) ∧
      (k ∈ c.props (c.obj k) → ∀ y, year0 (c.obj k) ≤ y → y ≤ s.year (c.obj k) →
        y ∈ Dict.keys d)) := by
  intro s
  have g := (read_grows c n k s).1
  have hpast := (C12_system_gap_free c hown n year0 inputs hin w ops).1 (c.obj k) k
  cases hr : read c n k s with
  | mk r t =>
    rw [hr] at g
    replace g : Grows c s t := g
    cases r with
    | error e =>
      simp only [history, hr]
      exact ⟨trivial, fun _ h => (by cases h; rfl), fun v h => (by cases h)⟩
    | ok v =>
      simp only [history, hr]
      refine ⟨trivial, fun e h => (by cases h), fun v' h => ?_⟩
      cases h
      have other : ∀ y, y ≠ s.year (c.obj k) →
          Dict.get? (Dict.set (t.hist k) (t.year (c.obj k)) v) y = Dict.get? (s.hist k) y := by
        intro y hy
        rw [Dict.get?_set_ne _ _ (by rw [g.year]; exact Ne.symm hy), g.past k y hy]
      refine ⟨_, rfl, by rw [g.year, Dict.get?_set_self], other, fun hk y h1 h2 => ?_⟩
      rcases eq_or_lt_of_le h2 with e | hlt
      · rw [e, ← g.year]
        exact Dict.mem_keys_iff.2 ⟨_, Dict.get?_set_self _ _ _⟩
      · obtain ⟨u, hu⟩ := hpast hk y h1 hlt
        exact Dict.mem_keys_iff.2 ⟨_, (other y (ne_of_lt hlt)).trans hu⟩

/-- **C15** (assignment and deletion). After any program, an assigned value is what the property reads
as from then on, unless the year's value was given as an input, when the assignment does nothing;
deleting a value makes the property compute it again (so that there is nothing on record), again
unless it was an input. Nothing else changes: no other property's record, no year, no input. -/
theorem C15_system_assign (c : Sys O κ V σ) (hown : Owned c) (n : ℕ) (year0 : O → ℤ)
    (inputs : κ → Option (Dict ℤ V)) (hin : ∀ k d, inputs k = some d → Dict.WF d) (w : σ)
    (ops : List (Op O κ V σ)) (k : κ) (v : V) :
    let s := run c n (init year0 inputs w) ops
    let given := ∃ d, inputs k = some d ∧ s.year (c.obj k) ∈ Dict.keys d
    (given → set c k v s = s ∧ delete c k s = s) ∧
    (¬ given → read c (n + 1) k (set c k v s) = (.ok v, set c k v s) ∧
      Dict.get? ((delete c k s).hist k) (s.year (c.obj k)) = none ∧
      (∀ t, t = set c k v s ∨ t = delete c k s →
        t.year = s.year ∧ t.inputs = s.inputs ∧ t.world = s.world ∧ (∀ q, q ≠ k → t.hist q = s.hist q) ∧
        ∀ y, y ≠ s.year (c.obj k) → Dict.get? (t.hist k) y = Dict.get? (s.hist k) y)) := by
  intro s given
  have h := (run_inv hown n ops (inv_init c year0 inputs hin w)).1
  have hg : s.isInput c k = true ↔ given := by
    simp only [St.isInput, given]
    rw [show s.inputs = inputs from h.inp]
    cases hi : inputs k with
    | none => simp
    | some d => simp [Dict.get?_isSome]
  refine ⟨fun g => ?_, fun g => ?_⟩
  · simp only [set, delete, if_pos (hg.2 g), and_self]
  · have hno : ¬ s.isInput c k = true := fun e => g (hg.1 e)
    have e1 : set c k v s = s.record c k v := by simp only [set, if_neg hno]
    refine ⟨?_, ?_, ?_⟩
    · rw [e1]
      exact (read_grows c n k _).2.2 v (now_record c s k v)
    · simp only [delete, if_neg hno]
      simp only [if_true]
      rw [Dict.get?_del (h.wf k)]
      simp
    · rintro t (rfl | rfl)
      · rw [e1]
        refine ⟨rfl, rfl, rfl, fun q hq => ?_, fun y hy => ?_⟩
        · simp only [St.record, if_neg hq]
        · simp only [St.record, if_true]
          exact Dict.get?_set_ne _ _ (Ne.symm hy)
      · simp only [delete, if_neg hno]
        refine ⟨trivial, trivial, trivial, fun q hq => ?_, fun y hy => ?_⟩
        · simp only [if_neg hq]
        · simp only [if_true]
          rw [Dict.get?_del (h.wf k), if_neg (by first | exact hy | exact Ne.symm hy)]

end Forecaster.Recorded
