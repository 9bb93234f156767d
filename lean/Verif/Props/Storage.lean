import Verif.Model.Storage
import Verif.Props.Reader

/-!
# C109: settings files

What is written is read back; when writing or reading fails.
-/

namespace Forecaster.Storage

open Forecaster Forecaster.Reader

variable {F N : Type}

/-! ## Specification -/

mutual
/-- Every number in the tree that is written as a literal is read back as the same number. -/
def Parses (P : Parse F N) (W : Writer N) : Val N → Prop
  | .dict l => ParsesItems P W l
  | .list l => ParsesList P W l
  | .num x => W.format.highPrecision = false → parseLit P (W.lit x) = .ok x
  | _ => True
def ParsesItems (P : Parse F N) (W : Writer N) : List (Key N × Val N) → Prop
  | [] => True
  | (_, v) :: l => Parses P W v ∧ ParsesItems P W l
def ParsesList (P : Parse F N) (W : Writer N) : List (Val N) → Prop
  | [] => True
  | v :: l => Parses P W v ∧ ParsesList P W l
end

mutual
/-- JSON has a place for the tree: the keys of each dict are all strings or all numbers, and (with
`hp`) no key is a high-precision number. -/
def Writable (hp : Bool) : Val N → Prop
  | .dict l => ((∀ kv ∈ l, ∃ s, kv.1 = .str s) ∨ ∀ kv ∈ l, ∀ s, kv.1 ≠ .str s) ∧
      (hp = true → ∀ kv ∈ l, ∀ x, kv.1 ≠ .num x) ∧ WritableItems hp l
  | .list l => WritableList hp l
  | _ => True
def WritableItems (hp : Bool) : List (Key N × Val N) → Prop
  | [] => True
  | (_, v) :: l => Writable hp v ∧ WritableItems hp l
def WritableList (hp : Bool) : List (Val N) → Prop
  | [] => True
  | v :: l => Writable hp v ∧ WritableList hp l
end

/-- The values that a call of `write` is to write: its argument, or else the reader's own. -/
def Handed (o : Obj N) (arg : Arg N) (v : Val N) : Prop :=
  arg = .vals v ∨ (arg = .none ∧ o.values = v)

/-- The file is, at the later moment, as it was at the earlier one. -/
def Untouched (data name : String) (earlier later : Files) : Prop :=
  Dict.get? later (resolve data name) = Dict.get? earlier (resolve data name)

/-- The number that a literal stands for. Without `high_precision`: the float. With it: what it makes of
the text or, if it refuses texts, what it makes of the float. -/
inductive Denotes (P : Parse F N) : Lit → N → Prop
  | float (h : P.high = none) (token : String) : Denotes P (.float token) (P.plain (P.float token))
  | high {high} (h : P.high = some high) {token : String} {x : N} (hx : high (.inl token) = .ok x) :
    Denotes P (.float token) x
  | fallback {high} (h : P.high = some high) {token : String} {e : PyErr} {x : N}
    (he : high (.inl token) = .error e) (hx : high (.inr (P.float token)) = .ok x) :
    Denotes P (.float token) x
  | inf (h : P.high = none) : Denotes P (.inf false) (P.plain P.infinity)
  | highInf {high} (h : P.high = some high) {x : N} (hx : high (.inr P.infinity) = .ok x) :
    Denotes P (.inf false) x
  | neg {x : N} (h : Denotes P (.inf false) x) : Denotes P (.inf true) (P.neg x)

/-! ## Helpers -/

theorem parseInf_iff {P : Parse F N} {x : N} : parseInf P = .ok x ↔ Denotes P (.inf false) x := by
  unfold parseInf
  cases hh : P.high with
  | none =>
    constructor
    · intro h
      cases h
      exact .inf hh
    · intro h
      cases h with
      | inf => rfl
      | highInf h => rw [hh] at h; cases h
  | some high =>
    constructor
    · exact fun h => .highInf hh h
    · intro h
      cases h with
      | inf h => rw [hh] at h; cases h
      | highInf h hx => rw [hh] at h; cases h; exact hx

theorem parseLit_iff {P : Parse F N} {lit : Lit} {x : N} :
    parseLit P lit = .ok x ↔ Denotes P lit x := by
  cases lit with
  | nan =>
    constructor
    · intro h
      unfold parseLit at h
      cases hi : parseInf P <;> rw [hi] at h <;> cases h
    · intro h
      cases h
  | inf negative =>
    unfold parseLit
    cases hi : parseInf P with
    | error e =>
      constructor
      · intro h
        cases h
      · intro h
        cases h with
        | neg h => rw [parseInf_iff.2 h] at hi; cases hi
        | inf h => rw [parseInf_iff.2 (.inf h)] at hi; cases hi
        | highInf h hx => rw [parseInf_iff.2 (.highInf h hx)] at hi; cases hi
    | ok y =>
      cases negative with
      | false =>
        rw [← parseInf_iff, hi]
        simp
      | true =>
        simp only [ok_bind, if_true, Except.ok.injEq]
        constructor
        · rintro rfl
          exact .neg (parseInf_iff.1 hi)
        · intro h
          cases h with
          | neg h => rw [parseInf_iff.2 h] at hi; cases hi; rfl
  | float token =>
    unfold parseLit parseFloat
    cases hh : P.high with
    | none =>
      constructor
      · intro h
        cases h
        exact .float hh token
      · intro h
        cases h with
        | float => rfl
        | high h => rw [hh] at h; cases h
        | fallback h => rw [hh] at h; cases h
    | some high =>
      simp only
      cases ht : high (.inl token) with
      | ok y =>
        constructor
        · intro h
          cases h
          exact .high hh ht
        · intro h
          cases h with
          | float h => rw [hh] at h; cases h
          | high h hx => rw [hh] at h; cases h; rw [ht] at hx; exact hx
          | fallback h he => rw [hh] at h; cases h; rw [ht] at he; cases he
      | error e =>
        constructor
        · exact fun h => .fallback hh ht h
        · intro h
          cases h with
          | float h => rw [hh] at h; cases h
          | high h hx => rw [hh] at h; cases h; rw [ht] at hx; cases hx
          | fallback h he hx => rw [hh] at h; cases h; exact hx

theorem parsesItems_mem {P : Parse F N} {W : Writer N} {l : List (Key N × Val N)}
    (h : ParsesItems P W l) {a : Key N × Val N} (ha : a ∈ l) : Parses P W a.2 := by
  induction l with
  | nil => simp at ha
  | cons b l ih =>
    obtain ⟨k, v⟩ := b
    simp only [ParsesItems] at h
    rcases List.mem_cons.mp ha with rfl | ha
    · exact h.1
    · exact ih h.2 ha

theorem parsesList_mem {P : Parse F N} {W : Writer N} {l : List (Val N)}
    (h : ParsesList P W l) {a : Val N} (ha : a ∈ l) : Parses P W a := by
  induction l with
  | nil => simp at ha
  | cons b l ih =>
    simp only [ParsesList] at h
    rcases List.mem_cons.mp ha with rfl | ha
    · exact h.1
    · exact ih h.2 ha

theorem writableItems_iff {hp : Bool} {l : List (Key N × Val N)} :
    WritableItems hp l ↔ ∀ a ∈ l, Writable hp a.2 := by
  induction l with
  | nil => simp [WritableItems]
  | cons b l ih =>
    obtain ⟨k, v⟩ := b
    simp [WritableItems, ih]

theorem writableList_iff {hp : Bool} {l : List (Val N)} :
    WritableList hp l ↔ ∀ a ∈ l, Writable hp a := by
  induction l with
  | nil => simp [WritableList]
  | cons b l ih => simp [WritableList, ih]

theorem dumpItems_iff {W : Writer N} {l : List (Key N × Val N)} {l' : List (String × Json)} :
    dumpItems W l = .ok l' ↔
      List.Forall₂ (fun a b => dumpKey W a.1 = .ok b.1 ∧ dump W a.2 = .ok b.2) l l' := by
  induction l generalizing l' with
  | nil => simp [dumpItems, eq_comm]
  | cons a l ih =>
    obtain ⟨k, v⟩ := a
    simp only [dumpItems, List.forall₂_cons_left_iff]
    cases hk : dumpKey W k with
    | error e => simp
    | ok k' =>
      cases hv : dump W v with
      | error e => simp
      | ok v' =>
        cases hl : dumpItems W l with
        | error e =>
          simp only [ok_bind, error_bind, reduceCtorEq, false_iff]
          rintro ⟨b, u, -, hu, -⟩
          rw [ih.2 hu] at hl
          cases hl
        | ok m =>
          simp only [ok_bind, Except.ok.injEq]
          constructor
          · rintro rfl
            exact ⟨(k', v'), m, ⟨rfl, rfl⟩, ih.1 hl, rfl⟩
          · rintro ⟨b, u, ⟨h1, h2⟩, hu, rfl⟩
            have := ih.2 hu
            rw [hl] at this
            cases this
            rw [h1, h2]

theorem dumpList_iff {W : Writer N} {l : List (Val N)} {l' : List Json} :
    dumpList W l = .ok l' ↔ List.Forall₂ (fun a b => dump W a = .ok b) l l' := by
  induction l generalizing l' with
  | nil => simp [dumpList, eq_comm]
  | cons v l ih =>
    simp only [dumpList, List.forall₂_cons_left_iff]
    cases hv : dump W v with
    | error e => simp
    | ok v' =>
      cases hl : dumpList W l with
      | error e =>
        simp only [ok_bind, error_bind, reduceCtorEq, false_iff]
        rintro ⟨b, u, -, hu, -⟩
        rw [ih.2 hu] at hl
        cases hl
      | ok m =>
        simp only [ok_bind, Except.ok.injEq]
        constructor
        · rintro rfl
          exact ⟨v', m, rfl, ih.1 hl, rfl⟩
        · rintro ⟨b, u, h1, hu, rfl⟩
          have := ih.2 hu
          rw [hl] at this
          cases this
          rw [h1]

variable [DecidableEq N]

theorem loadItems_iff {P : Parse F N} {l : List (String × Json)} {l' : List (Key N × Val N)} :
    loadItems P l = .ok l' ↔
      List.Forall₂ (fun a b => b.1 = .str a.1 ∧ load P a.2 = .ok b.2) l l' := by
  induction l generalizing l' with
  | nil => simp [loadItems, eq_comm]
  | cons a l ih =>
    obtain ⟨k, v⟩ := a
    simp only [loadItems, List.forall₂_cons_left_iff]
    cases hv : load P v with
    | error e => simp
    | ok v' =>
      cases hl : loadItems P l with
      | error e =>
        simp only [ok_bind, error_bind, reduceCtorEq, false_iff]
        rintro ⟨b, u, -, hu, -⟩
        rw [ih.2 hu] at hl
        cases hl
      | ok m =>
        simp only [ok_bind, Except.ok.injEq]
        constructor
        · rintro rfl
          exact ⟨(.str k, v'), m, ⟨rfl, rfl⟩, ih.1 hl, rfl⟩
        · rintro ⟨⟨b1, b2⟩, u, ⟨h1, h2⟩, hu, rfl⟩
          have := ih.2 hu
          rw [hl] at this
          cases this
          simp only at h1 h2
          rw [h1, h2]

theorem loadList_iff {P : Parse F N} {l : List Json} {l' : List (Val N)} :
    loadList P l = .ok l' ↔ List.Forall₂ (fun a b => load P a = .ok b) l l' := by
  induction l generalizing l' with
  | nil => simp [loadList, eq_comm]
  | cons v l ih =>
    simp only [loadList, List.forall₂_cons_left_iff]
    cases hv : load P v with
    | error e => simp
    | ok v' =>
      cases hl : loadList P l with
      | error e =>
        simp only [ok_bind, error_bind, reduceCtorEq, false_iff]
        rintro ⟨b, u, -, hu, -⟩
        rw [ih.2 hu] at hl
        cases hl
      | ok m =>
        simp only [ok_bind, Except.ok.injEq]
        constructor
        · rintro rfl
          exact ⟨v', m, rfl, ih.1 hl, rfl⟩
        · rintro ⟨b, u, h1, hu, rfl⟩
          have := ih.2 hu
          rw [hl] at this
          cases this
          rw [h1]

omit [DecidableEq N] in
/-- A chain of two steps. -/
theorem forall₂_between {α β γ : Type} {R : α → β → Prop} {S : β → γ → Prop} {T : γ → α → Prop}
    {l : List α} {l' : List β} (h : List.Forall₂ R l l')
    (hst : ∀ a ∈ l, ∀ b, R a b → ∃ c, S b c ∧ T c a) :
    ∃ m, List.Forall₂ S l' m ∧ List.Forall₂ T m l := by
  induction h with
  | nil => exact ⟨[], .nil, .nil⟩
  | cons hab _ ih =>
    obtain ⟨c, h1, h2⟩ := hst _ (by simp) _ hab
    obtain ⟨m, h3, h4⟩ := ih fun a ha b hb => hst a (by simp [ha]) b hb
    exact ⟨c :: m, .cons h1 h3, .cons h2 h4⟩

theorem wf_of_converted {cls : String → StrClass N} {m l : List (Key N × Val N)}
    (h : List.Forall₂ (fun c a => convKey cls c.1 = .ok a.1 ∧ conv cls c.2 = .ok a.2) m l)
    (hw : Dict.WF l) : Dict.WF m := by
  have h1 : m.map (fun c => convKey cls c.1) = l.map fun a => Except.ok a.1 := by
    induction h with
    | nil => rfl
    | cons hab _ ih =>
      simp only [List.map_cons, hab.1]
      rw [ih (by unfold Dict.WF Dict.keys at hw ⊢; simp only [List.map_cons] at hw; exact (List.nodup_cons.1 hw).2)]
  have h2 : (l.map fun a => (Except.ok a.1 : Except PyErr (Key N))).Nodup := by
    have : l.map (fun a => (Except.ok a.1 : Except PyErr (Key N))) = (Dict.keys l).map Except.ok := by
      simp [Dict.keys, List.map_map, Function.comp_def]
    rw [this]
    exact List.Nodup.map (fun a b h => by injection h) hw
  rw [← h1] at h2
  have h3 : (m.map fun c => convKey cls c.1) = (Dict.keys m).map (convKey cls) := by
    simp [Dict.keys, List.map_map, Function.comp_def]
  rw [h3] at h2
  exact List.Nodup.of_map _ h2

/-- What is written is loaded and converted to what it was. -/
theorem load_dump {cls : String → StrClass N} {P : Parse F N} {W : Writer N} {v : Val N} {j : Json}
    (hr : Real v) (hp : Plain cls v) (hf : Faithful cls W.format v) (hl : Parses P W v)
    (h : dump W v = .ok j) : ∃ w, load P j = .ok w ∧ conv cls w = .ok v := by
  induction v using Val.ind generalizing j with
  | hd l ih =>
    simp only [Real] at hr
    simp only [Plain] at hp
    simp only [Faithful] at hf
    simp only [Parses] at hl
    simp only [dump] at h
    split at h
    · cases hd : dumpItems W l with
      | error e => rw [hd] at h; cases h
      | ok l' =>
        rw [hd] at h
        cases h
        have hd := dumpItems_iff.1 hd
        obtain ⟨m, h1, h2⟩ := forall₂_between
          (S := fun (b : String × Json) (c : Key N × Val N) => c.1 = .str b.1 ∧ load P b.2 = .ok c.2)
          (T := fun (c a : Key N × Val N) => convKey cls c.1 = .ok a.1 ∧ conv cls c.2 = .ok a.2) hd
          (fun a ha b hb => by
            obtain ⟨w, h1, h2⟩ := ih a ha (realItems_mem hr.2 ha) (plainItems_mem hp ha).2
              (faithfulItems_mem hf ha).2.2 (parsesItems_mem hl ha) hb.2
            refine ⟨(.str b.1, w), ⟨rfl, h1⟩, ?_, h2⟩
            obtain ⟨k, x⟩ := a
            have h3 := (plainItems_mem hp ha).1
            have h4 := faithfulItems_mem hf ha
            have h5 := hb.1
            cases k with
            | str s =>
              simp only [dumpKey, Except.ok.injEq] at h5
              rw [← h5]
              simp only [convKey]
              rw [h3 s rfl]
            | int n =>
              simp only [dumpKey, Except.ok.injEq] at h5
              rw [← h5]
              simp [convKey, h4.1 n rfl]
            | num y =>
              simp only [dumpKey] at h5
              split at h5
              · cases h5
              · rw [← Except.ok.inj h5]
                simp [convKey, h4.2.1 y rfl])
        have hw := wf_of_converted h2 hr.1
        refine ⟨.dict m, ?_, ?_⟩
        · simp only [load, loadItems_iff.2 h1, ok_bind]
          rw [Dict.update_nil_left hw]
        · simp only [conv, (convItems_iff cls m l).2 h2, ok_bind]
          rw [Dict.update_nil_left hr.1]
    · cases h
  | hl l ih =>
    simp only [Real] at hr
    simp only [Plain] at hp
    simp only [Faithful] at hf
    simp only [Parses] at hl
    simp only [dump] at h
    cases hd : dumpList W l with
    | error e => rw [hd] at h; cases h
    | ok l' =>
      rw [hd] at h
      cases h
      obtain ⟨m, h1, h2⟩ := forall₂_between (S := fun b c => load P b = .ok c)
        (T := fun c a => conv cls c = .ok a) (dumpList_iff.1 hd) (fun a ha b hb =>
          ih a ha (realList_mem hr ha) (plainList_mem hp ha) (faithfulList_mem hf ha)
            (parsesList_mem hl ha) hb)
      exact ⟨.list m, by simp only [load, loadList_iff.2 h1, ok_bind],
        by simp only [conv, (convList_iff cls m l).2 h2, ok_bind]⟩
  | hs s =>
    simp only [Plain] at hp
    cases h
    exact ⟨.str s, rfl, by simp [conv, convStr, hp]⟩
  | hi n => cases h; exact ⟨.int n, rfl, rfl⟩
  | hn x =>
    simp only [Faithful] at hf
    simp only [Parses] at hl
    simp only [dump, Except.ok.injEq] at h
    subst h
    cases hh : W.format.highPrecision with
    | true => exact ⟨.str (W.format.showNum x), by simp [load], by simp [conv, convStr, hf hh]⟩
    | false => exact ⟨.num x, by simp [load, hl hh], rfl⟩
  | hb b => cases h; exact ⟨.bool b, rfl, rfl⟩
  | h0 => cases h; exact ⟨.null, rfl, rfl⟩

omit [DecidableEq N] in
theorem content_handed {W : Writer N} {o : Obj N} {arg : Arg N} {v : Val N} (h : Handed o arg v) :
    content W o arg = dump W v := by
  rcases h with rfl | ⟨rfl, rfl⟩ <;> rfl

omit [DecidableEq N] in
theorem sortable_iff {l : List (Key N × Val N)} :
    sortable l = true ↔
      (∀ kv ∈ l, ∃ s, kv.1 = .str s) ∨ ∀ kv ∈ l, ∀ s, kv.1 ≠ .str s := by
  unfold sortable
  rw [Bool.or_eq_true, List.all_eq_true, List.all_eq_true]
  refine or_congr ?_ ?_
  · refine forall₂_congr fun kv _ => ?_
    cases kv.1 <;> simp
  · refine forall₂_congr fun kv _ => ?_
    cases kv.1 <;> simp

omit [DecidableEq N] in
theorem dumpKey_cases {W : Writer N} (k : Key N) :
    (∃ s, dumpKey W k = .ok s) ∧ ¬ (W.format.highPrecision = true ∧ ∃ x, k = .num x) ∨
    dumpKey W k = .error .typeError ∧ W.format.highPrecision = true ∧ ∃ x, k = .num x := by
  cases k with
  | str s => exact .inl ⟨⟨s, rfl⟩, by simp⟩
  | int n => exact .inl ⟨⟨_, rfl⟩, by simp⟩
  | num x =>
    cases hh : W.format.highPrecision with
    | true => exact .inr ⟨by simp [dumpKey, hh], rfl, x, rfl⟩
    | false => exact .inl ⟨⟨_, by simp only [dumpKey, hh]; rfl⟩, by simp⟩

omit [DecidableEq N] in
/-- A tree is written, if it is writable, or else raises `TypeError`. -/
theorem dump_cases {W : Writer N} (v : Val N) :
    (∃ j, dump W v = .ok j) ∧ Writable W.format.highPrecision v ∨
    dump W v = .error .typeError ∧ ¬ Writable W.format.highPrecision v := by
  induction v using Val.ind with
  | hd l ih =>
    simp only [dump, Writable, writableItems_iff]
    by_cases hs : sortable l = true
    · have hs' := sortable_iff.1 hs
      rw [if_pos hs]
      suffices H : (∃ j, dumpItems W l = .ok j) ∧
          ((W.format.highPrecision = true → ∀ kv ∈ l, ∀ x, kv.1 ≠ .num x) ∧
            ∀ a ∈ l, Writable W.format.highPrecision a.2) ∨
          dumpItems W l = .error .typeError ∧
          ¬ ((W.format.highPrecision = true → ∀ kv ∈ l, ∀ x, kv.1 ≠ .num x) ∧
            ∀ a ∈ l, Writable W.format.highPrecision a.2) by
        rcases H with ⟨⟨j, hj⟩, h2⟩ | ⟨h1, h2⟩
        · exact .inl ⟨⟨.dict j, by rw [hj]; rfl⟩, hs', h2⟩
        · exact .inr ⟨by rw [h1]; rfl, fun h => h2 h.2⟩
      clear hs hs'
      induction l with
      | nil => exact .inl ⟨⟨[], rfl⟩, by simp⟩
      | cons a l ihl =>
        obtain ⟨k, x⟩ := a
        simp only [dumpItems]
        rcases dumpKey_cases (W := W) k with ⟨⟨s, hs⟩, hk⟩ | ⟨he, h1, y, rfl⟩
        · rw [hs]
          simp only [ok_bind]
          rcases ih (k, x) (by simp) with ⟨⟨j, hj⟩, hw⟩ | ⟨he, hw⟩
          · simp only at hj hw
            rw [hj]
            simp only [ok_bind]
            rcases ihl (fun kv hkv => ih kv (by simp [hkv])) with ⟨⟨m, hm⟩, h2⟩ | ⟨h1, h2⟩
            · refine .inl ⟨⟨(s, j) :: m, by rw [hm]; rfl⟩, ?_, ?_⟩
              · intro hh kv hkv z hz
                rcases List.mem_cons.1 hkv with rfl | hkv
                · exact hk ⟨hh, z, hz⟩
                · exact h2.1 hh kv hkv z hz
              · intro a ha
                rcases List.mem_cons.1 ha with rfl | ha
                · exact hw
                · exact h2.2 a ha
            · refine .inr ⟨by rw [h1]; rfl, fun h => h2 ⟨?_, ?_⟩⟩
              · exact fun hh kv hkv => h.1 hh kv (by simp [hkv])
              · exact fun a ha => h.2 a (by simp [ha])
          · simp only at he hw
            exact .inr ⟨by rw [he]; rfl, fun h => hw (h.2 (k, x) (by simp))⟩
        · exact .inr ⟨by rw [he]; rfl, fun h => h.1 h1 (.num y, x) (by simp) y rfl⟩
    · rw [if_neg hs]
      exact .inr ⟨rfl, fun h => hs (sortable_iff.2 h.1)⟩
  | hl l ih =>
    simp only [dump, Writable, writableList_iff]
    suffices H : (∃ j, dumpList W l = .ok j) ∧ (∀ a ∈ l, Writable W.format.highPrecision a) ∨
        dumpList W l = .error .typeError ∧ ¬ ∀ a ∈ l, Writable W.format.highPrecision a by
      rcases H with ⟨⟨j, hj⟩, h2⟩ | ⟨h1, h2⟩
      · exact .inl ⟨⟨.list j, by rw [hj]; rfl⟩, h2⟩
      · exact .inr ⟨by rw [h1]; rfl, h2⟩
    induction l with
    | nil => exact .inl ⟨⟨[], rfl⟩, by simp⟩
    | cons x l ihl =>
      simp only [dumpList]
      rcases ih x (by simp) with ⟨⟨j, hj⟩, hw⟩ | ⟨he, hw⟩
      · rw [hj]
        simp only [ok_bind]
        rcases ihl (fun kv hkv => ih kv (by simp [hkv])) with ⟨⟨m, hm⟩, h2⟩ | ⟨h1, h2⟩
        · refine .inl ⟨⟨j :: m, by rw [hm]; rfl⟩, ?_⟩
          intro a ha
          rcases List.mem_cons.1 ha with rfl | ha
          · exact hw
          · exact h2 a ha
        · exact .inr ⟨by rw [h1]; rfl, fun h => h2 fun a ha => h a (by simp [ha])⟩
      · exact .inr ⟨by rw [he]; rfl, fun h => hw (h x (by simp))⟩
  | hs s => exact .inl ⟨⟨_, rfl⟩, by simp [Writable]⟩
  | hi n => exact .inl ⟨⟨_, rfl⟩, by simp [Writable]⟩
  | hn x => exact .inl ⟨⟨_, rfl⟩, by simp [Writable]⟩
  | hb b => exact .inl ⟨⟨_, rfl⟩, by simp [Writable]⟩
  | h0 => exact .inl ⟨⟨_, rfl⟩, by simp [Writable]⟩

omit [DecidableEq N] in
theorem parseLit_error {P : Parse F N} (hP : P.high = none) {x : Lit} {e : PyErr}
    (h : parseLit P x = .error e) : e = .valueError := by
  cases x with
  | float t => simp [parseLit, parseFloat, hP] at h
  | inf b => simp [parseLit, parseInf, hP] at h
  | nan => simpa [parseLit, parseInf, hP, eq_comm] using h

/-- With floats, the only exception while loading is the `ValueError` for NaN; and NaN is never
loaded. -/
theorem load_nan {P : Parse F N} (hP : P.high = none) {W : Writer N}
    (hW : W.format.highPrecision = false) {v : Val N} {j : Json} (h : dump W v = .ok j) :
    (∀ e, load P j = .error e → e = .valueError) ∧
      ∀ p x, at_ v p = some (.num x) → W.lit x = .nan → load P j = .error .valueError := by
  induction v using Val.ind generalizing j with
  | hd l ih =>
    simp only [dump] at h
    split at h
    · cases hd : dumpItems W l with
      | error e => rw [hd] at h; cases h
      | ok l' =>
        rw [hd] at h
        cases h
        have hd := dumpItems_iff.1 hd
        have H1 : ∀ e, loadItems P l' = .error e → e = .valueError := by
          clear * - ih hd
          induction hd with
          | nil => intro e he; cases he
          | @cons a b l l' hab _ ihl =>
            intro e he
            obtain ⟨k, y⟩ := b
            simp only [loadItems] at he
            have h1 := (ih a (by simp) hab.2).1
            cases hy : load P y with
            | error e' =>
              rw [hy] at he
              cases he
              exact h1 _ hy
            | ok y' =>
              rw [hy] at he
              simp only [ok_bind] at he
              cases hl : loadItems P l' with
              | error e' =>
                rw [hl] at he
                cases he
                exact ihl (fun kv hkv => ih kv (by simp [hkv])) _ hl
              | ok m => rw [hl] at he; cases he
        have H2 : ∀ m, loadItems P l' = .ok m →
            ∀ a ∈ l, ∃ w j, dump W a.2 = .ok j ∧ load P j = .ok w := by
          intro m hm
          have hm := loadItems_iff.1 hm
          clear * - hd hm
          induction hd generalizing m with
          | nil => simp
          | @cons a b l l' hab _ ihl =>
            cases hm with
            | @cons _ c _ m hbc hm =>
              intro x hx
              rcases List.mem_cons.1 hx with rfl | hx
              · exact ⟨c.2, b.2, hab.2, hbc.2⟩
              · exact ihl m hm x hx
        refine ⟨?_, ?_⟩
        · intro e he
          simp only [load] at he
          cases hl : loadItems P l' with
          | error e' =>
            rw [hl] at he
            cases he
            exact H1 _ hl
          | ok m => rw [hl] at he; cases he
        · intro p x hx hn
          simp only [load]
          cases hl : loadItems P l' with
          | error e' => rw [H1 _ hl]; rfl
          | ok m =>
            exfalso
            cases p with
            | nil => simp [at_] at hx
            | cons s p =>
              cases s with
              | idx i => simp [at_] at hx
              | key k =>
                simp only [at_, Option.bind_eq_some_iff] at hx
                obtain ⟨u, hu, hx⟩ := hx
                have hmem := Dict.mem_of_get? hu
                obtain ⟨w, j, h1, h2⟩ := H2 m hl _ hmem
                have := (ih _ hmem h1).2 p x hx hn
                rw [h2] at this
                cases this
    · cases h
  | hl l ih =>
    simp only [dump] at h
    cases hd : dumpList W l with
    | error e => rw [hd] at h; cases h
    | ok l' =>
      rw [hd] at h
      cases h
      have hd := dumpList_iff.1 hd
      have H1 : ∀ e, loadList P l' = .error e → e = .valueError := by
        clear * - ih hd
        induction hd with
        | nil => intro e he; cases he
        | @cons a b l l' hab _ ihl =>
          intro e he
          simp only [loadList] at he
          have h1 := (ih a (by simp) hab).1
          cases hy : load P b with
          | error e' =>
            rw [hy] at he
            cases he
            exact h1 _ hy
          | ok y' =>
            rw [hy] at he
            simp only [ok_bind] at he
            cases hl : loadList P l' with
            | error e' =>
              rw [hl] at he
              cases he
              exact ihl (fun kv hkv => ih kv (by simp [hkv])) _ hl
            | ok m => rw [hl] at he; cases he
      have H2 : ∀ m, loadList P l' = .ok m → ∀ a ∈ l, ∃ w j, dump W a = .ok j ∧ load P j = .ok w := by
        intro m hm
        have hm := loadList_iff.1 hm
        clear * - hd hm
        induction hd generalizing m with
        | nil => simp
        | @cons a b l l' hab _ ihl =>
          cases hm with
          | @cons _ c _ m hbc hm =>
            intro x hx
            rcases List.mem_cons.1 hx with rfl | hx
            · exact ⟨c, b, hab, hbc⟩
            · exact ihl m hm x hx
      refine ⟨?_, ?_⟩
      · intro e he
        simp only [load] at he
        cases hl : loadList P l' with
        | error e' =>
          rw [hl] at he
          cases he
          exact H1 _ hl
        | ok m => rw [hl] at he; cases he
      · intro p x hx hn
        simp only [load]
        cases hl : loadList P l' with
        | error e' => rw [H1 _ hl]; rfl
        | ok m =>
          exfalso
          cases p with
          | nil => simp [at_] at hx
          | cons s p =>
            cases s with
            | key k => simp [at_] at hx
            | idx i =>
              simp only [at_, Option.bind_eq_some_iff] at hx
              obtain ⟨u, hu, hx⟩ := hx
              have hmem := List.mem_of_getElem? hu
              obtain ⟨w, j, h1, h2⟩ := H2 m hl _ hmem
              have := (ih _ hmem h1).2 p x hx hn
              rw [h2] at this
              cases this
  | hn x =>
    simp only [dump, hW, Except.ok.injEq] at h
    subst h
    refine ⟨?_, ?_⟩
    · intro e he
      simp only [Bool.false_eq_true, if_false, load] at he
      cases hx : parseLit P (W.lit x) with
      | error e' =>
        rw [hx] at he
        cases he
        exact parseLit_error hP hx
      | ok y => rw [hx] at he; cases he
    · intro p y hy hn
      cases p with
      | nil =>
        simp only [at_, Option.some.injEq, Val.num.injEq] at hy
        subst hy
        simp [load, hn, parseLit, parseInf, hP]
      | cons s p => simp [at_] at hy
  | hs s =>
    cases h
    exact ⟨(fun e he => by cases he), (fun p x hx => by cases p <;> simp [at_] at hx)⟩
  | hi n =>
    cases h
    exact ⟨(fun e he => by cases he), (fun p x hx => by cases p <;> simp [at_] at hx)⟩
  | hb b =>
    cases h
    exact ⟨(fun e he => by cases he), (fun p x hx => by cases p <;> simp [at_] at hx)⟩
  | h0 =>
    cases h
    exact ⟨(fun e he => by cases he), (fun p x hx => by cases p <;> simp [at_] at hx)⟩

omit [DecidableEq N] in
theorem write_ok {W : Writer N} {data name : String} {fs fs' : Files} {o : Obj N} {arg : Arg N}
    (h : write W data fs o name arg = (.ok (), fs')) :
    ∃ j, content W o arg = .ok j ∧ Dict.get? fs' (resolve data name) = some (.text j) := by
  unfold write at h
  cases hc : content W o arg with
  | error e => rw [hc] at h; cases h
  | ok j =>
    rw [hc] at h
    cases h
    exact ⟨j, rfl, by rw [Dict.get?_set]; simp⟩

/-! ## The theorems -/

/-- What was written is what a reader, also another one and later, has read: the tree of the values, if
it is a dict, has no texts that look like numbers, and its numbers are read as they were written. -/
theorem C109_round_trip {cls : String → StrClass N} {P : Parse F N} {W : Writer N}
    {data name : String} {fs fs' later : Files} {o r : Obj N} {arg : Arg N}
    {l l0 : List (Key N × Val N)} (hv : Handed o arg (.dict l))
    (hr : Real (.dict l)) (hp : Plain cls (.dict l)) (hf : Faithful cls W.format (.dict l))
    (hl : Parses P W (.dict l)) (h : write W data fs o name arg = (.ok (), fs'))
    (hu : Untouched data name fs' later) (h0 : r.values = .dict l0) :
    read cls P data later r name true = (.ok (), { r with values := .dict l }) ∧
      new cls P data later (some name) true r.useDefaults = .ok { r with values := .dict l } := by
  obtain ⟨j, h1, h2⟩ := write_ok h
  rw [content_handed hv] at h1
  obtain ⟨w, h3, h4⟩ := load_dump hr hp hf hl h1
  have H : ∀ r : Obj N, (∃ l0, r.values = .dict l0) →
      read cls P data later r name true = (.ok (), { r with values := .dict l }) := by
    rintro r ⟨l0, h0⟩
    unfold read opened Reader.read
    rw [hu, h2, h0]
    simp only [cleared, h3, if_true, h4]
  refine ⟨H r ⟨l0, h0⟩, ?_⟩
  unfold new
  simp only
  rw [H _ ⟨[], rfl⟩]

/-- Numbers in a file (which has each name once): it can be read exactly if each of its literals stands
for a number, and these are then the values. -/
theorem C109_literals {cls : String → StrClass N} {P : Parse F N} {data name : String} {fs : Files}
    {l : List (String × Lit)} {r : Obj N} {l0 : List (Key N × Val N)} (h0 : r.values = .dict l0)
    (hl : (l.map Prod.fst).Nodup)
    (hf : Dict.get? fs (resolve data name) = some (.text (.dict (l.map fun kv => (kv.1, .num kv.2))))) :
    ((read cls P data fs r name false).1 = .ok () ↔ ∀ kv ∈ l, ∃ x, Denotes P kv.2 x) ∧
      ((read cls P data fs r name false).1 = .ok () → ∀ kv ∈ l, ∀ x, Denotes P kv.2 x →
        attrGet kv.1 none (read cls P data fs r name false).2 = .ok (.num x)) := by
  have key : ∀ l : List (String × Lit),
      ((∀ kv ∈ l, ∃ x, Denotes P kv.2 x) → ∃ m : List (Key N × Val N),
        loadItems P (l.map fun kv => (kv.1, .num kv.2)) = .ok m) ∧
      ∀ m : List (Key N × Val N), loadItems P (l.map fun kv => (kv.1, .num kv.2)) = .ok m →
        Dict.keys m = l.map (fun kv => Key.str kv.1) ∧
        ∀ kv ∈ l, ∃ x, Denotes P kv.2 x ∧ (Key.str kv.1, Val.num x) ∈ m := by
    intro l
    induction l with
    | nil =>
      refine ⟨fun _ => ⟨[], rfl⟩, fun m h => ?_⟩
      simp only [List.map_nil, loadItems, Except.ok.injEq] at h
      subst h
      exact ⟨rfl, by simp⟩
    | cons a l ih =>
      obtain ⟨k, lit⟩ := a
      constructor
      · intro h
        obtain ⟨x, hx⟩ := h (k, lit) (by simp)
        obtain ⟨m, hm⟩ := ih.1 fun kv hkv => h kv (by simp [hkv])
        refine ⟨(.str k, .num x) :: m, ?_⟩
        simp only [List.map_cons, loadItems, load, parseLit_iff.2 hx, hm, ok_bind]
      · intro m h
        simp only [List.map_cons, loadItems, load] at h
        cases hp : parseLit P lit with
        | error e => rw [hp] at h; cases h
        | ok x =>
          cases hm : loadItems P (l.map fun kv => (kv.1, Json.num kv.2)) with
          | error e => rw [hp, hm] at h; cases h
          | ok m' =>
            rw [hp, hm] at h
            simp only [ok_bind, Except.ok.injEq] at h
            subst h
            obtain ⟨i1, i2⟩ := ih.2 m' hm
            refine ⟨?_, ?_⟩
            · unfold Dict.keys at i1 ⊢
              simp [i1]
            · intro kv hkv
              rcases List.mem_cons.1 hkv with rfl | hkv
              · exact ⟨x, parseLit_iff.1 hp, by simp⟩
              · obtain ⟨y, h1, h2⟩ := i2 kv hkv
                exact ⟨y, h1, by simp [h2]⟩
  obtain ⟨k1, k2⟩ := key l
  unfold read opened Reader.read
  rw [hf, h0]
  simp only [cleared, load]
  cases hm : loadItems P (l.map fun kv => (kv.1, Json.num kv.2)) with
  | error e =>
    refine ⟨⟨fun h => ?_, fun h => ?_⟩, fun h => ?_⟩
    · cases h
    · obtain ⟨m, h'⟩ := k1 h
      rw [h'] at hm
      cases hm
    · cases h
  | ok m =>
    obtain ⟨i1, i2⟩ := k2 m hm
    have hw : Dict.WF m := by
      unfold Dict.WF
      rw [i1]
      have : l.map (fun kv => Key.str (N := N) kv.1) = (l.map Prod.fst).map Key.str := by simp
      rw [this]
      exact hl.map fun a b h => by cases h; rfl
    simp only [ok_bind, Bool.false_eq_true, if_false, Dict.update_nil_left hw]
    refine ⟨⟨fun _ kv hkv => ?_, fun _ => trivial⟩, fun _ kv hkv x hx => ?_⟩
    · obtain ⟨x, hx, -⟩ := i2 kv hkv
      exact ⟨x, hx⟩
    · obtain ⟨y, hy, hmem⟩ := i2 kv hkv
      have : x = y := by
        have := parseLit_iff.2 hx
        rw [parseLit_iff.2 hy] at this
        cases this
        rfl
      subst this
      unfold attrGet
      simp only
      rw [Dict.get?_of_mem hw hmem]

/-- The constructor reads the file that is named: it raises what reading raises, and otherwise gives what
is read; without a name it gives a reader without values. -/
theorem C109_constructor {cls : String → StrClass N} {P : Parse F N} {data name : String} {fs : Files}
    {numericConvert useDefaults : Bool} (o : Obj N) (e : PyErr) :
    (new cls P data fs (some name) numericConvert useDefaults = .ok o ↔
      read cls P data fs ⟨.dict [], useDefaults⟩ name numericConvert = (.ok (), o)) ∧
    (new cls P data fs (some name) numericConvert useDefaults = .error e ↔
      (read cls P data fs ⟨.dict [], useDefaults⟩ name numericConvert).1 = .error e) ∧
    new cls P data fs none numericConvert useDefaults = .ok ⟨.dict [], useDefaults⟩ := by
  unfold new
  simp only
  cases read cls P data fs ⟨.dict [], useDefaults⟩ name numericConvert with
  | mk a b => cases a <;> simp

/-- Where files are: a name that begins with a slash is that very path, from whatever directory; other
names are in the data directory. Writing puts the file there, and a file is read from there. -/
theorem C109_places (cls : String → StrClass N) (P : Parse F N) (W : Writer N) (data : String)
    (fs : Files) (o r : Obj N) {l0 : List (Key N × Val N)} (h0 : r.values = .dict l0) (name path : String)
    (hp : name.toList.head? = some '/' ∧ path = name ∨
      name.toList.head? ≠ some '/' ∧ path = data ++ name) (arg : Arg N) (numericConvert : Bool) :
    (∃ f, Dict.get? (write W data fs o name arg).2 path = some f) ∧
      (path ∉ Dict.keys fs →
        (read cls P data fs r name numericConvert).1 = .error .fileNotFoundError) ∧
      ∀ fs' : Files, Dict.get? fs' path = Dict.get? fs path →
        read cls P data fs' r name numericConvert = read cls P data fs r name numericConvert := by
  have hr : resolve data name = path := by
    unfold resolve
    rcases hp with ⟨h, rfl⟩ | ⟨h, rfl⟩
    · rw [if_pos h]
    · rw [if_neg h]
  refine ⟨?_, fun h => ?_, fun fs' h => ?_⟩
  · unfold write
    cases content W o arg with
    | ok j => exact ⟨_, by simp only; rw [hr, Dict.get?_set, if_pos rfl]⟩
    | error e => exact ⟨_, by simp only; rw [hr, Dict.get?_set, if_pos rfl]⟩
  · unfold read opened Reader.read
    rw [hr, Dict.get?_eq_none.2 h, h0]
    rfl
  · unfold read opened
    rw [hr, h]

/-- `write` changes no other file. -/
theorem C109_other_files {W : Writer N} {data name : String} {fs : Files} {o : Obj N} {arg : Arg N}
    {path : String} (h : path ≠ resolve data name) :
    Dict.get? (write W data fs o name arg).2 path = Dict.get? fs path := by
  unfold write
  cases content W o arg with
  | ok j => simp only; rw [Dict.get?_set, if_neg (Ne.symm h)]
  | error e => simp only; rw [Dict.get?_set, if_neg (Ne.symm h)]

/-- Writing values succeeds if JSON has a place for them, and otherwise raises `TypeError`. -/
theorem C109_what_can_be_written {W : Writer N} {data name : String} {fs : Files} {o : Obj N}
    {arg : Arg N} {v : Val N} (hv : Handed o arg v) :
    ((write W data fs o name arg).1 = .ok () ↔ Writable W.format.highPrecision v) ∧
      ((write W data fs o name arg).1 = .error .typeError ↔ ¬ Writable W.format.highPrecision v) := by
  unfold write
  rw [content_handed hv]
  rcases dump_cases (W := W) v with ⟨⟨j, hj⟩, h⟩ | ⟨hj, h⟩
  · rw [hj]; simp [h]
  · rw [hj]; simp [h]

/-- When `write` fails, what the file held is lost: reading it raises `ValueError` and leaves the reader
without any values. -/
theorem C109_failed_write_destroys {cls : String → StrClass N} {P : Parse F N} {W : Writer N}
    {data name : String} {fs fs' later : Files} {o r : Obj N} {arg : Arg N} {e : PyErr}
    {l0 : List (Key N × Val N)} (h : write W data fs o name arg = (.error e, fs'))
    (hu : Untouched data name fs' later) (h0 : r.values = .dict l0) (numericConvert : Bool) :
    e = .typeError ∧
      read cls P data later r name numericConvert = (.error .valueError, { r with values := .dict [] }) := by
  have hc : content W o arg = .error e ∧ Dict.get? fs' (resolve data name) = some .broken := by
    unfold write at h
    cases hc : content W o arg with
    | ok j => rw [hc] at h; cases h
    | error e' =>
      rw [hc] at h
      cases h
      exact ⟨rfl, by rw [Dict.get?_set]; simp⟩
  refine ⟨?_, ?_⟩
  · have hd : ∀ v, dump W v = .error e → e = .typeError := by
      intro v hv
      rcases dump_cases (W := W) v with ⟨⟨j, hj⟩, -⟩ | ⟨hj, -⟩
      · rw [hj] at hv; cases hv
      · rw [hj] at hv; cases hv; rfl
    cases arg with
    | none => exact hd _ hc.1
    | vals v => exact hd _ hc.1
    | reader o' => simpa [content, eq_comm] using hc.1
  · unfold read opened Reader.read
    rw [hu, hc.2, h0]
    simp only [cleared]

/-- The documentation says that `vals` may be a `ValueReader`: that raises `TypeError`, and the file is
gone. -/
theorem C109_reader_object_refuted {cls : String → StrClass N} {P : Parse F N} (W : Writer N)
    (data name : String) (fs : Files) (o o' r : Obj N) {l0 : List (Key N × Val N)}
    (h0 : r.values = .dict l0) :
    (write W data fs o name (.reader o')).1 = .error .typeError ∧
      read cls P data (write W data fs o name (.reader o')).2 r name true =
        (.error .valueError, { r with values := .dict [] }) := by
  refine ⟨rfl, ?_⟩
  exact (C109_failed_write_destroys (e := .typeError) (o := o) (W := W) (arg := .reader o')
    (fs := fs) rfl rfl h0 true).2

/-- NaN is written without complaint, but a file that has it cannot be read. -/
theorem C109_nan_refuted {cls : String → StrClass N} {P : Parse F N} {W : Writer N}
    {data name : String} {fs fs' later : Files} {o r : Obj N} {arg : Arg N} {v : Val N}
    {l0 : List (Key N × Val N)} (hP : P.high = none) (hW : W.format.highPrecision = false)
    (hv : Handed o arg v) (hw : Writable false v) {p : List (Step N)} {x : N}
    (hx : at_ v p = some (.num x)) (hn : W.lit x = .nan) (h0 : r.values = .dict l0)
    (h : (write W data fs o name arg).2 = fs') (hu : Untouched data name fs' later)
    (numericConvert : Bool) :
    (write W data fs o name arg).1 = .ok () ∧
      read cls P data later r name numericConvert =
        (.error .valueError, { r with values := .dict [] }) := by
  have h1 : (write W data fs o name arg).1 = .ok () :=
    (C109_what_can_be_written hv).1.2 (by rw [hW]; exact hw)
  refine ⟨h1, ?_⟩
  obtain ⟨j, h2, h3⟩ := write_ok (Prod.ext h1 h)
  rw [content_handed hv] at h2
  unfold read opened Reader.read
  rw [hu, h3, h0]
  simp only [cleared, (load_nan hP hW h2).2 p x hx hn]

/-- A high-precision number that is whole comes back as an integer, not as a high-precision number. -/
theorem C109_whole_numbers_refuted {cls : String → StrClass N} {P : Parse F N} {W : Writer N}
    {data name : String} {fs fs' later : Files} {o r r' : Obj N} {arg : Arg N}
    {l : List (Key N × Val N)} {k : String} {x : N} {n : ℤ} (hW : W.format.highPrecision = true)
    (hv : Handed o arg (.dict l)) (hwf : Dict.WF l)
    (hkeys : ∀ kv ∈ l, ∃ s, kv.1 = .str s ∧ cls s = .text)
    (hx : Dict.get? l (.str k) = some (.num x)) (hn : cls (W.format.showNum x) = .int n)
    (h : write W data fs o name arg = (.ok (), fs')) (hu : Untouched data name fs' later)
    (hr : read cls P data later r name true = (.ok (), r')) :
    attrGet k none r' = .ok (.int n) := by
  obtain ⟨j, h1, h2⟩ := write_ok h
  rw [content_handed hv] at h1
  simp only [dump] at h1
  split at h1
  swap
  · cases h1
  cases hd : dumpItems W l with
  | error e => rw [hd] at h1; cases h1
  | ok l' =>
    rw [hd] at h1
    cases h1
    have hd := dumpItems_iff.1 hd
    unfold read opened Reader.read at hr
    rw [hu, h2] at hr
    cases hc : cleared r.values with
    | error e => rw [hc] at hr; cases hr
    | ok empty =>
      rw [hc] at hr
      simp only [load] at hr
      cases hl : loadItems P l' with
      | error e => rw [hl] at hr; cases hr
      | ok m =>
        rw [hl] at hr
        have hm := loadItems_iff.1 hl
        have hkm : Dict.keys m = Dict.keys l := by
          clear * - hd hm hkeys
          induction hd generalizing m with
          | nil => cases hm; rfl
          | @cons a b l l' hab _ ihl =>
            cases hm with
            | @cons _ c _ m hbc hm =>
              obtain ⟨s, hs, -⟩ := hkeys a (by simp)
              have h1 := hab.1
              rw [hs] at h1
              simp only [dumpKey, Except.ok.injEq] at h1
              have h2 := ihl (fun kv hkv => hkeys kv (by simp [hkv])) m hm
              unfold Dict.keys at h2 ⊢
              simp only [List.map_cons, h2, hbc.1, hs, h1]
        have hwm : Dict.WF m := by unfold Dict.WF; rw [hkm]; exact hwf
        have hmem : (Key.str k, Val.str (W.format.showNum x)) ∈ m := by
          have hmx := Dict.mem_of_get? hx
          clear * - hd hm hmx hW
          induction hd generalizing m with
          | nil => simp at hmx
          | @cons a b l l' hab _ ihl =>
            cases hm with
            | @cons _ c _ m hbc hm =>
              rcases List.mem_cons.1 hmx with rfl | hmx
              · simp only [dumpKey, dump, hW, if_true, Except.ok.injEq] at hab
                obtain ⟨c1, c2⟩ := c
                simp only [← hab.1, ← hab.2, load, Except.ok.injEq] at hbc
                rw [hbc.1, hbc.2]
                simp
              · exact List.mem_cons_of_mem _ (ihl m hm hmx)
        simp only [ok_bind, if_true, Dict.update_nil_left hwm] at hr
        cases hcv : conv cls (.dict m) with
        | error e => rw [hcv] at hr; cases hr
        | ok w =>
          rw [hcv] at hr
          obtain ⟨m', rfl, hf⟩ := conv_dict_ok hcv
          simp only at hr
          cases hr
          have hkm' : Dict.keys m' = Dict.keys m := by
            have hk : ∀ c ∈ m, ∃ s, c.1 = .str s ∧ cls s = .text := by
              intro c hc
              have : c.1 ∈ Dict.keys l := by rw [← hkm]; exact List.mem_map_of_mem hc
              obtain ⟨a, ha, hac⟩ := List.mem_map.1 this
              obtain ⟨s, h1, h2⟩ := hkeys a ha
              exact ⟨s, by rw [← hac, h1], h2⟩
            clear * - hf hk
            induction hf with
            | nil => rfl
            | @cons a b l l' hab _ ihl =>
              obtain ⟨s, h1, h2⟩ := hk a (by simp)
              have h3 := hab.1
              rw [h1] at h3
              simp only [convKey, h2, Except.ok.injEq] at h3
              have h4 := ihl (fun kv hkv => hk kv (by simp [hkv]))
              unfold Dict.keys at h4 ⊢
              simp only [List.map_cons, h4, h1, h3]
          have hwm' : Dict.WF m' := by unfold Dict.WF; rw [hkm']; exact hwm
          obtain ⟨b, hb, h3, h4⟩ : ∃ b ∈ m', convKey cls (.str k) = .ok b.1 ∧
              conv cls (.str (W.format.showNum x)) = .ok b.2 := by
            clear * - hf hmem
            induction hf with
            | nil => simp at hmem
            | @cons a b l l' hab _ ihl =>
              rcases List.mem_cons.1 hmem with rfl | hmem
              · exact ⟨b, by simp, hab⟩
              · obtain ⟨c, h1, h2⟩ := ihl hmem
                exact ⟨c, by simp [h1], h2⟩
          obtain ⟨s, h5, h6⟩ := hkeys _ (Dict.mem_of_get? hx)
          simp only [Key.str.injEq] at h5
          subst h5
          simp only [convKey, h6, Except.ok.injEq] at h3
          simp only [conv, convStr, hn, Except.ok.injEq] at h4
          unfold attrGet
          simp only [Dict.update_nil_left hwm']
          rw [h3, Dict.get?_of_mem hwm' (v := b.2) hb, ← h4]

/-! ## Instances

Two numbers: one half (`false`), written as `0.5`, and NaN (`true`). -/

/-- Texts that are numbers: "0.5" and, for whole high-precision numbers, "2.0". -/
def toyClass : String → StrClass Bool := fun s =>
  if s = "0.5" then .num (.ok false) else if s = "2.0" then .int 2 else .text

def toyParse : Parse Unit Bool where
  float _ := ()
  infinity := ()
  plain _ := false
  neg x := x
  high := none

/-- Floats. -/
def toyWriter : Writer Bool where
  format := { highPrecision := false, showInt := fun _ => "n", showNum := fun _ => "0.5" }
  lit x := if x then .nan else .float "0.5"

/-- High-precision numbers: one half and two. -/
def toyHigh : Writer Bool where
  format := { highPrecision := true, showInt := fun _ => "n"
              showNum := fun x => if x then "2.0" else "0.5" }
  lit _ := .nan

def toyReader : Obj Bool := { values := .dict [(.str "old", .int 1)], useDefaults := true }

/-- A file is written and read. -/
example : read toyClass toyParse "/data/"
      (write toyWriter "/data/" [] toyReader "a.json"
        (.vals (.dict [(.str "rate", .num false), (.str "ages", .list [.int 65])]))).2
      toyReader "a.json" true =
    (.ok (), { toyReader with
      values := .dict [(.str "rate", .num false), (.str "ages", .list [.int 65])] }) := by
  refine (C109_round_trip (F := Unit) (cls := toyClass) (P := toyParse) (W := toyWriter) (fs := [])
    (arg := .vals (.dict [(.str "rate", .num false), (.str "ages", .list [.int 65])]))
    (o := toyReader) (.inl rfl) ?_ ?_ ?_ ?_ rfl rfl rfl).1
  · refine ⟨?_, trivial, ⟨trivial, trivial⟩, trivial⟩
    simp [Dict.WF, Dict.keys]
  · refine ⟨?_, trivial, ?_, ⟨trivial, trivial⟩, trivial⟩ <;>
      · intro s hs
        cases hs
        rfl
  · refine ⟨nofun, nofun, nofun, nofun, nofun, ⟨trivial, trivial⟩, trivial⟩
  · exact ⟨fun _ => rfl, ⟨trivial, trivial⟩, trivial⟩

/-- A library of high-precision numbers that takes texts without an exponent only. -/
def toyPrecise : Parse Unit Bool where
  float _ := ()
  infinity := ()
  plain _ := true
  neg x := !x
  high := some fun a => match a with
    | .inl t => if t = "0.5" then .ok false else .error .valueError
    | .inr _ => .ok true

/-- A file with four numbers. -/
example : attrGet "d" none (read toyClass toyPrecise "/data/"
      [("/data/a.json", .text (.dict
        [("a", .num (.float "0.5")), ("b", .num (.float "5e-1")), ("c", .num (.inf false)),
          ("d", .num (.inf true))]))] toyReader "a.json" false).2 = .ok (.num false) := by
  refine (C109_literals (cls := toyClass) (P := toyPrecise) (r := toyReader)
    (l := [("a", .float "0.5"), ("b", .float "5e-1"), ("c", .inf false), ("d", .inf true)])
    rfl (by decide) rfl).2 rfl ("d", .inf true) (by simp) false ?_
  exact .neg (x := true) (.highInf rfl rfl)

/-- A dict with a text and a number as keys cannot be written, one with two texts can. -/
example : ¬ Writable (N := Bool) false (.dict [(.str "a", .null), (.int 1, .null)]) ∧
    Writable (N := Bool) true (.dict [(.str "a", .null), (.str "b", .num true)]) := by
  constructor
  · rintro ⟨h | h, -⟩
    · obtain ⟨s, hs⟩ := h (.int 1, .null) (by simp)
      cases hs
    · exact h (.str "a", .null) (by simp) "a" rfl
  · refine ⟨.inl ?_, fun _ => ?_, trivial, trivial, trivial⟩ <;> simp

/-- A failed `write` over an existing file, through the reader's own values. -/
example : write toyWriter "/data/" [("/data/a.json", .text (.dict []))]
      { toyReader with
        values := .dict [(.str "a", .null), (.int 1, .null)] } "a.json" .none =
    (.error .typeError, [("/data/a.json", .broken)]) := by
  rfl

/-- NaN inside a list. -/
example : at_ (Val.dict [(Key.str "rates", Val.list [.num false, .num true])])
      [.key (.str "rates"), .idx 1] = some (Val.num true) ∧ toyWriter.lit true = .nan ∧
    Writable (N := Bool) false (.dict [(Key.str "rates", Val.list [.num false, .num true])]) := by
  refine ⟨rfl, rfl, .inl (by simp), nofun, ⟨trivial, trivial, trivial⟩, trivial⟩

/-- The whole number two, in high precision. -/
example : attrGet "two" none (read toyClass toyParse "/data/"
      (write toyHigh "/data/" [] toyReader "a.json" (.vals (.dict [(.str "two", .num true)]))).2
      toyReader "a.json" true).2 = .ok (.int 2) := by
  refine C109_whole_numbers_refuted (cls := toyClass) (P := toyParse) (W := toyHigh) (o := toyReader)
    (data := "/data/") (name := "a.json") (fs := []) (r := toyReader) (l := [(.str "two", .num true)]) rfl (.inl rfl) (by simp [Dict.WF, Dict.keys]) ?_ rfl rfl
    (Prod.ext rfl rfl) rfl (Prod.ext rfl rfl)
  intro kv hkv
  simp only [List.mem_singleton] at hkv
  subst hkv
  exact ⟨"two", rfl, rfl⟩

end Forecaster.Storage
