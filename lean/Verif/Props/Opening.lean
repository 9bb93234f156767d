import Verif.Model.Opening
import Verif.Props.Link
import Verif.Props.Registered
import Mathlib.Data.Rat.Floor
import Mathlib.Algebra.Order.Ring.Rat

/-!
# Opening accounts: who shares which contribution room, and what failures leave (C100 - C102)
-/

set_option linter.unusedSectionVars false

namespace Forecaster.Opening

open Forecaster Forecaster.Timing Forecaster.Account Forecaster.Registered Forecaster.Link

variable {P : Type} [DecidableEq P]
variable {K : Type} [Field K] [LinearOrder K] [IsStrictOrderedRing K] [FloorRing K]

/-! ## What a user sees -/

/-- Specification: `(account.contributor, account.max_inflow_link.token)`. -/
def pairOf (w : World P K) (i : ℕ) : Option (P × String) :=
  ((w.accts[i]?).bind Obj.link).bind fun n => w.links[n]?

/-- Specification: `AccountLink((p, t)).group`. -/
def members (w : World P K) (p : P) (t : String) : List ℕ :=
  match Dict.get? (w.store p) t with
  | some r => r.group
  | none => []

/-- Specification: `AccountLink((p, t)).data`, the shared contribution room. -/
def shared (w : World P K) (p : P) (t : String) : Option K :=
  match Dict.get? (w.store p) t with
  | some r => r.data
  | none => none

/-- Specification: the `(contributor, token)` pair that the arguments ask for. -/
def asked (w : World P K) (a : Args P K) : Option (P × String) :=
  match a.kwLink with
  | some (.obj n) => w.links[n]?
  | some (.pair p t) => some (p, t)
  | none => some (a.contributor.getD a.owner, a.token.getD (a.className ++ ".max_inflow"))

/-- Specification: the room that the arguments give. -/
def roomGiven (a : Args P K) : Option K :=
  match a.room with
  | some v => some v
  | none => a.kwLimit.join

/-- Specification: it is a TFSA or an RRSP. -/
def IsRegistered (a : Args P K) : Prop := match a.kind with | .plain => False | _ => True

/-- Specification: the room of the first account of its group: nothing for an RRSP, what has accrued
for a TFSA. -/
def firstOf (a : Args P K) : Except PyErr K :=
  match a.kind with
  | .tfsa e => inferRoom e a.inputs a.year
  | _ => .ok 0

/-! ## The invariant -/

/-- What holds as long as no contributor is reassigned. -/
structure Good (w : World P K) : Prop where
  bound : ∀ (i : ℕ) (r : Obj P K) (n : ℕ), w.accts[i]? = some r → r.link = some n → n < w.links.length
  known : ∀ (n : ℕ) (pt : P × String), w.links[n]? = some pt → (Dict.get? (w.store pt.1) pt.2).isSome
  group : ∀ p t i, i ∈ members w p t ↔ pairOf w i = some (p, t)
  nodup : ∀ p t, (members w p t).Nodup

theorem good_empty : Good (empty : World P K) := by
  refine ⟨?_, ?_, ?_, ?_⟩
  · intro i r n h; simp [empty] at h
  · intro n pt h; simp [empty] at h
  · intro p t i; simp [empty, members, pairOf, Dict.get?]
  · intro p t; simp [empty, members, Dict.get?]

/-- Only the links and the groups matter. -/
theorem Good.of_eq {w w' : World P K} (h : Good w) (hl : w'.links = w.links)
    (hs : ∀ p t, members w' p t = members w p t)
    (hk : ∀ p t, (Dict.get? (w.store p) t).isSome → (Dict.get? (w'.store p) t).isSome)
    (ha : ∀ i : ℕ, (w'.accts[i]?).bind Obj.link = (w.accts[i]?).bind Obj.link) : Good w' := by
  refine ⟨?_, ?_, ?_, ?_⟩
  · intro i r n hr hn
    have h1 := ha i
    rw [hr, Option.bind_some, hn] at h1
    cases hw : w.accts[i]? with
    | none => rw [hw] at h1; cases h1
    | some r' =>
      rw [hw, Option.bind_some] at h1
      rw [hl]; exact h.bound i r' n hw h1.symm
  · intro n pt hn
    rw [hl] at hn
    exact hk _ _ (h.known n pt hn)
  · intro p t i
    rw [hs, h.group]
    unfold pairOf
    rw [ha, hl]
  · intro p t; rw [hs]; exact h.nodup p t

/-! ### Putting a new object in the world -/

theorem put_get (w : World P K) (a : Args P K) (r : Obj P K) (i : ℕ) :
    (put w a r).accts[i]? = if i = w.accts.length then some r else w.accts[i]? := by
  unfold put
  simp only [List.getElem?_append]
  by_cases h : i < w.accts.length
  · rw [if_pos h, if_neg (by omega)]
  · rw [if_neg h]
    by_cases h2 : i = w.accts.length
    · subst h2; simp
    · rw [if_neg h2, List.getElem?_eq_none (by simp; omega), List.getElem?_eq_none (by omega)]

theorem put_link (w : World P K) (a : Args P K) (r : Obj P K) (hr : r.link = none) (i : ℕ) :
    ((put w a r).accts[i]?).bind Obj.link = (w.accts[i]?).bind Obj.link := by
  rw [put_get]
  by_cases h : i = w.accts.length
  · subst h; simp [hr]
  · rw [if_neg h]

theorem good_put {w : World P K} (h : Good w) (a : Args P K) (r : Obj P K) (hr : r.link = none) :
    Good (put w a r) :=
  h.of_eq rfl (fun _ _ => rfl) (fun _ _ h => h) (put_link w a r hr)

/-- What `Account.__init__` does, whether it raises or not. -/
theorem baseInit_put (w : World P K) (a : Args P K) :
    ∃ n tm, (baseInit w a).1 = put w a (newObj a n tm) := by
  unfold baseInit
  cases nperOf a with
  | error e => exact ⟨none, [], rfl⟩
  | ok n =>
    cases timingOf a with
    | error e => exact ⟨n, [], rfl⟩
    | ok tm => exact ⟨n, tm, rfl⟩

/-! ### Joining a group -/

theorem join_spec (s : Store P String ℕ (Option K)) (p : P) (t : String) (fresh : Bool) (i : ℕ)
    (limit : Option K) (hs : fresh = true ∨ (Dict.get? (s p) t).isSome) :
    ∃ s', join s ⟨p, t, none⟩ fresh i limit = .ok s' ∧
      ∀ q u, Dict.get? (s' q) u =
        if p = q ∧ t = u then
          some ⟨(let g := match Dict.get? (s p) t with | some r => r.group | none => []
                 if i ∈ g then g else g ++ [i]),
                limit.or (match Dict.get? (s p) t with | some r => r.data | none => none)⟩
        else Dict.get? (s q) u := by
  have key : ∀ (s1 : Store P String ℕ (Option K)) (r : Record ℕ (Option K)),
      Dict.get? (s1 p) t = some r →
      (∀ q u, ¬ (p = q ∧ t = u) → Dict.get? (s1 q) u = Dict.get? (s q) u) →
      (∀ g, g = r.group → ∀ d, d = r.data →
      ∃ s', (do
          let s ← linkAccount s1 ⟨p, t, none⟩ i
          match limit with
          | some v => setData s ⟨p, t, none⟩ (some v)
          | none => .ok s : Except PyErr (Store P String ℕ (Option K))) = .ok s' ∧
        ∀ q u, Dict.get? (s' q) u =
          if p = q ∧ t = u then
            some ⟨if i ∈ g then g else g ++ [i], limit.or d⟩
          else Dict.get? (s q) u) := by
    intro s1 r hr ho g hg d hd
    subst hg; subst hd
    have h1 : linkAccount s1 (⟨p, t, none⟩ : AccountLink P String (Option K)) i
        = .ok (putRecord s1 ⟨p, t, none⟩
            { r with group := if i ∈ r.group then r.group else r.group ++ [i] }) := by
      unfold linkAccount record
      simp only [hr]
    rw [h1]
    cases limit with
    | none =>
      refine ⟨_, rfl, ?_⟩
      intro q u
      rw [Link.get_put]
      by_cases hq : p = q ∧ t = u
      · rw [if_pos hq, if_pos hq]; simp
      · rw [if_neg hq, if_neg hq, ho q u hq]
    | some v =>
      have h2 : setData (putRecord s1 ⟨p, t, none⟩
            { r with group := if i ∈ r.group then r.group else r.group ++ [i] })
          (⟨p, t, none⟩ : AccountLink P String (Option K)) (some v)
          = .ok (putRecord (putRecord s1 ⟨p, t, none⟩
              { r with group := if i ∈ r.group then r.group else r.group ++ [i] }) ⟨p, t, none⟩
              ⟨if i ∈ r.group then r.group else r.group ++ [i], some v⟩) := by
        unfold setData record
        rw [Link.get_put, if_pos ⟨rfl, rfl⟩]
      refine ⟨_, h2, ?_⟩
      intro q u
      rw [Link.get_put, Link.get_put]
      by_cases hq : p = q ∧ t = u
      · rw [if_pos hq, if_pos hq]; simp
      · rw [if_neg hq, if_neg hq, if_neg hq, ho q u hq]
  unfold join
  cases hr : Dict.get? (s p) t with
  | some r =>
    have h1 : (if fresh then register s (⟨p, t, none⟩ : AccountLink P String (Option K)) else s)
        = s := by
      cases fresh
      · rfl
      · unfold register isRegistered record
        simp [hr]
    rw [h1]
    exact key s r hr (fun _ _ _ => rfl) _ rfl _ rfl
  | none =>
    have hf : fresh = true := by
      rcases hs with h | h
      · exact h
      · rw [hr] at h; cases h
    subst hf
    have h1 : (if (true : Bool) then register s (⟨p, t, none⟩ : AccountLink P String (Option K))
        else s) = putRecord s ⟨p, t, none⟩ ⟨[], none⟩ := by
      unfold register isRegistered record
      simp [hr]
    rw [h1]
    refine key _ ⟨[], none⟩ ?_ ?_ _ rfl _ rfl
    · rw [Link.get_put, if_pos ⟨rfl, rfl⟩]
    · intro q u hq
      rw [Link.get_put, if_neg hq]

/-- The pair that a link argument stands for. -/
def target (w : World P K) (arg : LinkArg P ⊕ (P × String)) : Option (P × String) :=
  match arg with
  | .inl (.obj n) => w.links[n]?
  | .inl (.pair p t) => some (p, t)
  | .inr pt => some pt

theorem alias_spec (w : World P K) (a : Args P K) {arg : LinkArg P ⊕ (P × String)}
    {limit : Option K}
    (h : processAliasArgs a.room a.contributor a.token a.kwLimit a.kwLink a.owner
        (a.className ++ ".max_inflow") = .ok (arg, limit)) :
    target w arg = asked w a ∧ limit = roomGiven a := by
  unfold processAliasArgs at h
  obtain ⟨cn, kind, owner, bal, gr, np, tm, yr, room, con, tok, kl, kw, inp⟩ := a
  cases room with
  | none =>
    cases kl with
    | none =>
      cases kw with
      | none =>
        cases h; exact ⟨rfl, rfl⟩
      | some l =>
        cases con <;> cases tok <;> cases h
        cases l <;> exact ⟨rfl, rfl⟩
    | some lim =>
      cases kw with
      | none => cases h; exact ⟨rfl, rfl⟩
      | some l =>
        cases con <;> cases tok <;> cases h
        cases l <;> exact ⟨rfl, rfl⟩
  | some v =>
    cases kl with
    | none =>
      cases kw with
      | none => cases h; exact ⟨rfl, rfl⟩
      | some l =>
        cases con <;> cases tok <;> cases h
        cases l <;> exact ⟨rfl, rfl⟩
    | some l => cases h

/-- The shared record of a pair that has one. -/
theorem get_record (w : World P K) (p : P) (t : String) (h : (Dict.get? (w.store p) t).isSome) :
    Dict.get? (w.store p) t = some ⟨members w p t, shared w p t⟩ := by
  unfold members shared
  cases hr : Dict.get? (w.store p) t with
  | none => rw [hr] at h; cases h
  | some r => rfl

theorem linkInit_spec {w : World P K} (hw : Good w) (i : ℕ) (arg : LinkArg P ⊕ (P × String))
    (limit : Option K) (r : Obj P K) (hr : w.accts[i]? = some r) {p : P} {t : String}
    (ht : target w arg = some (p, t)) :
    ∃ w' n, linkInit w i arg limit = (w', none) ∧ w'.owned = w.owned ∧
      w'.links[n]? = some (p, t) ∧ (∃ ext, w'.links = w.links ++ ext) ∧
      (∀ (m : ℕ) (pt : P × String), w'.links[m]? = some pt → w.links[m]? = some pt ∨ pt = (p, t)) ∧
      w'.accts = w.accts.set i { r with link := some n } ∧
      ∀ q u, Dict.get? (w'.store q) u =
        if p = q ∧ t = u then
          some ⟨if i ∈ members w p t then members w p t else members w p t ++ [i],
            limit.or (shared w p t)⟩
        else Dict.get? (w.store q) u := by
  have key : ∀ (l2 : List (P × String)) (n : ℕ) (fresh : Bool),
      linkObj w arg = ({ w with links := l2 }, n, fresh) → l2[n]? = some (p, t) →
      (fresh = true ∨ (Dict.get? (w.store p) t).isSome) →
      ∃ w', linkInit w i arg limit = (w', none) ∧ w'.owned = w.owned ∧
        w'.links = l2 ∧
        w'.accts = w.accts.set i { r with link := some n } ∧
        ∀ q u, Dict.get? (w'.store q) u =
          if p = q ∧ t = u then
            some ⟨if i ∈ members w p t then members w p t else members w p t ++ [i],
              limit.or (shared w p t)⟩
          else Dict.get? (w.store q) u := by
    intro l2 n fresh ho hn hf
    obtain ⟨s', hj, hs'⟩ := join_spec w.store p t fresh i limit hf
    refine ⟨{ w with links := l2, store := s', accts := w.accts.set i { r with link := some n } },
      ?_, rfl, rfl, rfl, ?_⟩
    · unfold linkInit
      rw [ho]
      simp only [linkAt, hn, hr, Option.map_some, hj]
    · intro q u
      rw [hs' q u]
      unfold members shared
      rfl
  have fresh : ∀ pt : P × String, pt = (p, t) →
      linkObj w arg = ({ w with links := w.links ++ [pt] }, w.links.length, true) →
      ∃ w' n, linkInit w i arg limit = (w', none) ∧ w'.owned = w.owned ∧
      w'.links[n]? = some (p, t) ∧ (∃ ext, w'.links = w.links ++ ext) ∧
      (∀ (m : ℕ) (pt : P × String), w'.links[m]? = some pt → w.links[m]? = some pt ∨ pt = (p, t)) ∧
      w'.accts = w.accts.set i { r with link := some n } ∧
      ∀ q u, Dict.get? (w'.store q) u =
        if p = q ∧ t = u then
          some ⟨if i ∈ members w p t then members w p t else members w p t ++ [i],
            limit.or (shared w p t)⟩
        else Dict.get? (w.store q) u := by
    intro pt hpt ho
    subst hpt
    obtain ⟨w', h1, h2, h3, h4, h5⟩ := key _ _ _ ho (by simp) (Or.inl rfl)
    refine ⟨w', w.links.length, h1, h2, by rw [h3]; simp, ⟨[(p, t)], h3⟩, ?_, h4, h5⟩
    intro m pt hm
    rw [h3, List.getElem?_append] at hm
    split at hm
    · exact Or.inl hm
    · rename_i hlt
      right
      cases hx : m - w.links.length with
      | zero => rw [hx] at hm; simp at hm; exact hm.symm
      | succ k => rw [hx] at hm; simp at hm
  cases arg with
  | inl la =>
    cases la with
    | obj n =>
      have ht : w.links[n]? = some (p, t) := ht
      obtain ⟨w', h1, h2, h3, h4, h5⟩ := key w.links n false rfl ht (Or.inr (hw.known n _ ht))
      refine ⟨w', n, h1, h2, by rw [h3]; exact ht, ⟨[], by rw [h3]; simp⟩, ?_, h4, h5⟩
      intro m pt hm
      rw [h3] at hm; exact Or.inl hm
    | pair q u =>
      exact fresh (q, u) (by simpa [target] using ht) rfl
  | inr pt => exact fresh pt (by simpa [target] using ht) rfl

theorem linkInit_none {w : World P K} (i : ℕ) (arg : LinkArg P ⊕ (P × String))
    (limit : Option K) (ht : target w arg = none) :
    linkInit w i arg limit = (w, some .typeError) := by
  cases arg with
  | inl la =>
    cases la with
    | obj n =>
      have ht : w.links[n]? = none := ht
      unfold linkInit linkObj linkAt
      simp only [ht, Option.map_none]
    | pair q u => cases ht
  | inr pt => cases ht

/-- After an account has joined a group. -/
theorem linked {w w' : World P K} (hw : Good w) {i n : ℕ} {r : Obj P K} {p : P} {t : String}
    {d : Option K} (hr : w.accts[i]? = some r) (hl : r.link = none)
    (hn : w'.links[n]? = some (p, t)) (hx : ∃ ext, w'.links = w.links ++ ext)
    (hk : ∀ (m : ℕ) (pt : P × String), w'.links[m]? = some pt → w.links[m]? = some pt ∨ pt = (p, t))
    (ha : w'.accts = w.accts.set i { r with link := some n })
    (hs : ∀ q u, Dict.get? (w'.store q) u =
        if p = q ∧ t = u then
          some ⟨if i ∈ members w p t then members w p t else members w p t ++ [i], d⟩
        else Dict.get? (w.store q) u) :
    (∀ j, pairOf w' j = if j = i then some (p, t) else pairOf w j) ∧
    (∀ q u, members w' q u = if p = q ∧ t = u then members w q u ++ [i] else members w q u) ∧
    (∀ q u, shared w' q u = if p = q ∧ t = u then d else shared w q u) ∧
    Good w' := by
  have hi : i < w.accts.length := by
    by_contra hc
    rw [List.getElem?_eq_none (by omega)] at hr; cases hr
  have hni : pairOf w i = none := by unfold pairOf; rw [hr, Option.bind_some, hl]; rfl
  have hnm : i ∉ members w p t := by
    rw [hw.group, hni]; simp
  have hp : ∀ j, pairOf w' j = if j = i then some (p, t) else pairOf w j := by
    intro j
    by_cases hj : j = i
    · subst hj
      rw [if_pos rfl]
      unfold pairOf
      rw [ha, List.getElem?_set_self hi, Option.bind_some]
      exact hn
    · rw [if_neg hj]
      unfold pairOf
      rw [ha, List.getElem?_set_ne (Ne.symm hj)]
      cases hj2 : w.accts[j]? with
      | none => rfl
      | some r2 =>
        rw [Option.bind_some]
        cases hl2 : r2.link with
        | none => rfl
        | some m =>
          have := hw.bound j r2 m hj2 hl2
          obtain ⟨ext, hext⟩ := hx
          rw [Option.bind_some, Option.bind_some, hext, List.getElem?_append_left this]
  have hm : ∀ q u, members w' q u
      = if p = q ∧ t = u then members w q u ++ [i] else members w q u := by
    intro q u
    unfold members
    rw [hs q u]
    by_cases hq : p = q ∧ t = u
    · rw [if_pos hq, if_pos hq]
      obtain ⟨rfl, rfl⟩ := hq
      simp only [if_neg hnm]
      rfl
    · rw [if_neg hq, if_neg hq]
  refine ⟨hp, hm, ?_, ⟨?_, ?_, ?_, ?_⟩⟩
  · intro q u
    unfold shared
    rw [hs q u]
    by_cases hq : p = q ∧ t = u
    · rw [if_pos hq, if_pos hq]
    · rw [if_neg hq, if_neg hq]
  · intro j r2 m hj hl2
    rw [ha] at hj
    by_cases hij : i = j
    · subst hij
      rw [List.getElem?_set_self hi] at hj
      cases hj
      simp only [Option.some.injEq] at hl2
      subst hl2
      by_contra hc
      rw [List.getElem?_eq_none (by omega)] at hn; cases hn
    · rw [List.getElem?_set_ne hij] at hj
      have := hw.bound j r2 m hj hl2
      obtain ⟨ext, hext⟩ := hx
      rw [hext, List.length_append]; omega
  · intro m pt hm2
    rw [hs]
    split
    · rfl
    · rename_i hne
      rcases hk m pt hm2 with h | h
      · exact hw.known m pt h
      · exact absurd (by rw [h]; exact ⟨rfl, rfl⟩) hne
  · intro q u j
    rw [hm q u, hp j]
    by_cases hq : p = q ∧ t = u
    · rw [if_pos hq]
      obtain ⟨rfl, rfl⟩ := hq
      by_cases hj : j = i
      · subst hj; simp
      · rw [if_neg hj, List.mem_append, hw.group]; simp [hj]
    · rw [if_neg hq]
      by_cases hj : j = i
      · subst hj
        rw [if_pos rfl, hw.group, hni]
        constructor
        · intro h; cases h
        · intro h; simp only [Option.some.injEq, Prod.mk.injEq] at h; exact absurd h hq
      · rw [if_neg hj, hw.group]
  · intro q u
    rw [hm q u]
    by_cases hq : p = q ∧ t = u
    · rw [if_pos hq]
      obtain ⟨rfl, rfl⟩ := hq
      rw [List.nodup_append]
      refine ⟨hw.nodup p t, by simp, ?_⟩
      intro x hx y hy
      simp only [List.mem_singleton] at hy
      subst hy
      exact fun h => hnm (h ▸ hx)
    · rw [if_neg hq]; exact hw.nodup q u

/-! ### Assigning the room -/

/-- `w'` differs from `w` at most in shared limits, records of rooms and transactions. -/
structure Same (w w' : World P K) : Prop where
  links : w'.links = w.links
  owned : w'.owned = w.owned
  members : ∀ p t, members w' p t = members w p t
  known : ∀ p t, (Dict.get? (w.store p) t).isSome → (Dict.get? (w'.store p) t).isSome
  link : ∀ i : ℕ, (w'.accts[i]?).bind Obj.link = (w.accts[i]?).bind Obj.link
  length : w'.accts.length = w.accts.length

theorem Same.refl (w : World P K) : Same w w :=
  ⟨rfl, rfl, fun _ _ => rfl, fun _ _ h => h, fun _ => rfl, rfl⟩

theorem Same.good {w w' : World P K} (h : Same w w') (hw : Good w) : Good w' :=
  hw.of_eq h.links h.members h.known h.link

theorem Same.pair {w w' : World P K} (h : Same w w') (i : ℕ) : pairOf w' i = pairOf w i := by
  unfold pairOf; rw [h.link, h.links]

theorem set_link (l : List (Obj P K)) (i j : ℕ) (r r' : Obj P K) (hr : l[i]? = some r)
    (hl : r'.link = r.link) : ((l.set i r')[j]?).bind Obj.link = (l[j]?).bind Obj.link := by
  rw [List.getElem?_set]
  split
  · rename_i h
    subst h
    split
    · rw [hr, Option.bind_some, Option.bind_some, hl]
    · rename_i h2
      rw [List.getElem?_eq_none (by omega)]
  · rfl

theorem setRoom_same (w : World P K) (i : ℕ) (v : K) : Same w (setRoom w i v).1 := by
  unfold setRoom
  cases hr : w.accts[i]? with
  | none => exact Same.refl w
  | some r =>
    simp only
    split
    · exact Same.refl w
    · have h1 : ∀ j : ℕ, ((w.accts.set i { r with
          roomHist := Dict.del r.roomHist r.acct.year })[j]?).bind Obj.link
          = (w.accts[j]?).bind Obj.link := fun j => set_link _ i j r _ hr rfl
      cases r.link.bind (linkAt { w with
        accts := w.accts.set i { r with roomHist := Dict.del r.roomHist r.acct.year } }) with
      | none => exact ⟨rfl, rfl, fun _ _ => rfl, fun _ _ h => h, h1, by simp⟩
      | some l =>
        simp only
        unfold setData
        cases hrec : record w.store l with
        | none => exact ⟨rfl, rfl, fun _ _ => rfl, fun _ _ h => h, h1, by simp⟩
        | some rec =>
          refine ⟨rfl, rfl, ?_, ?_, h1, by simp⟩
          · intro p t
            unfold members
            rw [Link.get_put]
            by_cases h : l.owner = p ∧ l.token = t
            · rw [if_pos h]
              obtain ⟨rfl, rfl⟩ := h
              unfold record at hrec
              rw [hrec]
            · rw [if_neg h]
          · intro p t h
            simp only [Link.get_put]
            split
            · rfl
            · exact h

/-- Assigning the room of an account that is linked. -/
theorem setRoom_spec (w : World P K) (i : ℕ) (v : K) (r : Obj P K) (n : ℕ) (p : P) (t : String)
    (hr : w.accts[i]? = some r) (hl : r.link = some n) (hn : w.links[n]? = some (p, t))
    (hk : (Dict.get? (w.store p) t).isSome) (hy : r.acct.year ∉ Dict.keys r.inputs) :
    (setRoom w i v).2 = none ∧
    (setRoom w i v).1.accts = w.accts.set i
      { r with roomHist := Dict.del r.roomHist r.acct.year } ∧
    ∀ q u, shared (setRoom w i v).1 q u = if p = q ∧ t = u then some v else shared w q u := by
  have hg := get_record w p t hk
  have : setRoom w i v = ({ w with
      store := putRecord w.store ⟨p, t, none⟩ ⟨members w p t, some v⟩
      accts := w.accts.set i { r with roomHist := Dict.del r.roomHist r.acct.year } }, none) := by
    unfold setRoom
    simp only [hr, if_neg hy, hl, Option.bind_some, linkAt, hn, Option.map_some]
    unfold setData record
    simp only [hg]
  rw [this]
  refine ⟨rfl, rfl, ?_⟩
  intro q u
  unfold shared
  rw [Link.get_put]
  by_cases h : p = q ∧ t = u
  · rw [if_pos h, if_pos h]
  · rw [if_neg h, if_neg h]

theorem setRoom_input (w : World P K) (i : ℕ) (v : K) (r : Obj P K)
    (hr : w.accts[i]? = some r) (hy : r.acct.year ∈ Dict.keys r.inputs) :
    setRoom w i v = (w, none) := by
  unfold setRoom
  simp only [hr, if_pos hy]

theorem firstRoom_same (w : World P K) (i : ℕ) (r : Obj P K) (f : Except PyErr K) :
    Same w (firstRoom w i r f).1 := by
  unfold firstRoom
  cases roomOf w r with
  | some v => exact Same.refl w
  | none =>
    cases f with
    | error e => exact Same.refl w
    | ok v => exact setRoom_same w i v

theorem kindInit_same (w : World P K) (i : ℕ) : Same w (kindInit w i).1 := by
  unfold kindInit
  cases w.accts[i]? with
  | none => exact Same.refl w
  | some r =>
    simp only
    cases r.kind with
    | plain => exact Same.refl w
    | rrsp e c =>
      simp only
      cases setConversionYear e r.acct.year c with
      | error x => exact Same.refl w
      | ok c =>
        simp only
        cases extendScalar e.const.accrualMax e.adj r.acct.year with
        | error x => exact Same.refl w
        | ok y => exact firstRoom_same w i r _
    | tfsa e =>
      simp only
      cases baseAccrual e with
      | error x => exact Same.refl w
      | ok y => exact firstRoom_same w i r _

theorem addTo_same (w : World P K) (i : ℕ) (v : K) (when : When K) :
    Same w (addTo w i v when).1 := by
  unfold addTo
  cases hr : w.accts[i]? with
  | none => exact Same.refl w
  | some r =>
    simp only
    cases addTransaction r.acct v when with
    | error e => exact Same.refl w
    | ok a =>
      exact ⟨rfl, rfl, fun _ _ => rfl, fun _ _ h => h, fun j => set_link _ i j r _ hr rfl, by simp⟩

/-! ### Opening an account -/

/-- The four ways in which a constructor of a registered account can go. -/
theorem open_cases {w : World P K} (hw : Good w) (a : Args P K) (ha : IsRegistered a) :
    (∃ e, openAcct w a = (w, some e)) ∨
    (∃ n tm e, openAcct w a = (put w a (newObj a n tm), some e)) ∨
    (∃ n tm p t w2 m, asked w a = some (p, t) ∧ nperOf a = .ok n ∧ timingOf a = .ok tm ∧
      openAcct w a = kindInit w2 w.accts.length ∧
      w2.owned = (put w a (newObj a n tm)).owned ∧
      w2.accts = w.accts ++ [{ newObj a n tm with link := some m }] ∧
      w2.links[m]? = some (p, t) ∧
      (∀ j, pairOf w2 j = if j = w.accts.length then some (p, t) else pairOf w j) ∧
      (∀ q u, members w2 q u
        = if p = q ∧ t = u then members w q u ++ [w.accts.length] else members w q u) ∧
      (∀ q u, shared w2 q u
        = if p = q ∧ t = u then (roomGiven a).or (shared w p t) else shared w q u) ∧
      Good w2) := by
  have hopen : openAcct w a = match processAliasArgs a.room a.contributor a.token a.kwLimit
      a.kwLink a.owner (a.className ++ ".max_inflow") with
    | .error e => (w, some e)
    | .ok (arg, limit) =>
      andThen (baseInit w a) fun w1 =>
        andThen (linkInit w1 w.accts.length arg limit) fun w2 => kindInit w2 w.accts.length := by
    unfold openAcct
    unfold IsRegistered at ha
    cases hk : a.kind with
    | plain => rw [hk] at ha; exact ha.elim
    | rrsp e c => rfl
    | tfsa e => rfl
  rw [hopen]
  cases hal : processAliasArgs a.room a.contributor a.token a.kwLimit a.kwLink a.owner
      (a.className ++ ".max_inflow") with
  | error e => exact Or.inl ⟨e, rfl⟩
  | ok al =>
    obtain ⟨arg, limit⟩ := al
    right
    simp only
    unfold baseInit
    cases hn : nperOf a with
    | error e => exact Or.inl ⟨none, [], e, rfl⟩
    | ok n =>
      simp only
      cases htm : timingOf a with
      | error e => exact Or.inl ⟨n, [], e, rfl⟩
      | ok tm =>
        simp only [andThen]
        have hg : Good (put w a (newObj a n tm)) := good_put hw a _ rfl
        obtain ⟨ht, hlim⟩ := alias_spec (put w a (newObj a n tm)) a hal
        cases hat : asked w a with
        | none =>
          have h2 : target (put w a (newObj a n tm)) arg = none := ht.trans hat
          rw [linkInit_none _ _ _ h2]
          exact Or.inl ⟨n, tm, _, rfl⟩
        | some pt =>
          obtain ⟨p, t⟩ := pt
          have h2 : target (put w a (newObj a n tm)) arg = some (p, t) := ht.trans hat
          have hr : (put w a (newObj a n tm)).accts[w.accts.length]? = some (newObj a n tm) := by
            rw [put_get, if_pos rfl]
          obtain ⟨w2, m, e1, e2, e3, e4, e5, e6, e7⟩ :=
            linkInit_spec hg w.accts.length arg limit _ hr h2
          rw [e1]
          obtain ⟨f1, f2, f3, f4⟩ := linked hg hr rfl e3 e4 e5 e6 e7
          refine Or.inr ⟨n, tm, p, t, w2, m, rfl, rfl, rfl, rfl, e2, ?_, e3, ?_, f2, ?_, f4⟩
          · rw [e6]
            unfold put
            simp
          · intro j
            rw [f1 j]
            by_cases hj : j = w.accts.length
            · rw [if_pos hj, if_pos hj]
            · rw [if_neg hj, if_neg hj]
              unfold pairOf
              rw [put_link w a _ rfl]
              rfl
          · intro q u
            rw [f3 q u, hlim]
            rfl

theorem good_open {w : World P K} (hw : Good w) (a : Args P K) : Good (openAcct w a).1 := by
  by_cases ha : IsRegistered a
  · rcases open_cases hw a ha with ⟨e, h⟩ | ⟨n, tm, e, h⟩ | ⟨n, tm, p, t, w2, m, h⟩
    · rw [h]; exact hw
    · rw [h]; exact good_put hw a _ rfl
    · rw [h.2.2.2.1]
      exact (kindInit_same w2 _).good h.2.2.2.2.2.2.2.2.2.2
  · have : openAcct w a = baseInit w a := by
      unfold openAcct
      unfold IsRegistered at ha
      cases hk : a.kind with
      | plain => rfl
      | rrsp e c => rw [hk] at ha; exact absurd trivial ha
      | tfsa e => rw [hk] at ha; exact absurd trivial ha
    rw [this]
    obtain ⟨n, tm, h⟩ := baseInit_put w a
    rw [h]; exact good_put hw a _ rfl

theorem good_makeLink {w : World P K} (hw : Good w) (p : P) (t : String) (d : Option K) :
    Good (makeLink w p t d) := by
  have hs : ∀ q u, Dict.get? ((makeLink w p t d).store q) u
      = if p = q ∧ t = u then
          some (match Dict.get? (w.store p) t with | some r => r | none => ⟨[], d⟩)
        else Dict.get? (w.store q) u := by
    intro q u
    unfold makeLink register isRegistered record
    simp only
    cases hr : Dict.get? (w.store p) t with
    | none =>
      simp only [Option.isSome_none, Bool.false_eq_true, if_false]
      rw [Link.get_put]
    | some r =>
      simp only [Option.isSome_some, if_true]
      by_cases h : p = q ∧ t = u
      · rw [if_pos h, ← h.1, ← h.2, hr]
      · rw [if_neg h]
  have hm : ∀ q u, members (makeLink w p t d) q u = members w q u := by
    intro q u
    unfold members
    rw [hs q u]
    by_cases h : p = q ∧ t = u
    · rw [if_pos h]
      obtain ⟨rfl, rfl⟩ := h
      cases Dict.get? (w.store p) t <;> rfl
    · rw [if_neg h]
  have hb : ∀ i, pairOf (makeLink w p t d) i = pairOf w i := by
    intro i
    unfold pairOf makeLink
    simp only
    cases hi : w.accts[i]? with
    | none => rfl
    | some r =>
      rw [Option.bind_some]
      cases hl : r.link with
      | none => rfl
      | some n =>
        have := hw.bound i r n hi hl
        rw [Option.bind_some, Option.bind_some, List.getElem?_append_left this]
  refine ⟨?_, ?_, ?_, ?_⟩
  · intro i r n hi hl
    have := hw.bound i r n hi hl
    unfold makeLink
    simp only [List.length_append]; omega
  · intro n pt hn
    rw [hs]
    split
    · rfl
    · rename_i hne
      unfold makeLink at hn
      simp only [List.getElem?_append] at hn
      split at hn
      · exact hw.known n pt hn
      · exfalso
        cases hx : n - w.links.length with
        | zero => rw [hx] at hn; simp at hn; exact hne (by rw [← hn]; exact ⟨rfl, rfl⟩)
        | succ k => rw [hx] at hn; simp at hn
  · intro q u i; rw [hm, hb]; exact hw.group q u i
  · intro q u; rw [hm]; exact hw.nodup q u

/-- Specification: the program does not reassign contributors. -/
def Reassigns : Op P K → Prop
  | .setContributor _ _ => True
  | _ => False

theorem good_step {w : World P K} (hw : Good w) (op : Op P K) (h : ¬ Reassigns op) :
    Good (step w op).1 := by
  cases op with
  | «open» a => exact good_open hw a
  | link p t d => exact good_makeLink hw p t d
  | setRoom i v => exact (setRoom_same w i v).good hw
  | setContributor i p => exact absurd trivial h
  | add i v when => exact (addTo_same w i v when).good hw

/-- Specification: what programs that reassign no contributor can make. -/
def Made (w : World P K) : Prop := ∃ ops : List (Op P K), (∀ op ∈ ops, ¬ Reassigns op) ∧
  w = run empty ops

theorem Made.good {w : World P K} (h : Made w) : Good w := by
  obtain ⟨ops, hops, rfl⟩ := h
  unfold run
  have : ∀ (l : List (Op P K)) (w : World P K), Good w → (∀ op ∈ l, ¬ Reassigns op) →
      Good (l.foldl (fun w op => (step w op).1) w) := by
    intro l
    induction l with
    | nil => intro w hw _; exact hw
    | cons op l ih =>
      intro w hw hl
      exact ih _ (good_step hw op (hl op (by simp))) fun o ho => hl o (by simp [ho])
  exact this ops _ good_empty hops

/-! ## C100 -/

/-- **C100**: whatever accounts are opened, successfully or not, and whatever is assigned, contributed
and linked: as long as no contributor is reassigned, the group of a `(contributor, token)` pair
consists of the accounts with that contributor and token, each once. -/
theorem C100_groups {w : World P K} (hw : Made w) (p : P) (t : String) :
    (members w p t).Nodup ∧ ∀ i, i ∈ members w p t ↔ pairOf w i = some (p, t) :=
  ⟨hw.good.nodup p t, hw.good.group p t⟩

/-- Specification: the room of the group after the account has been opened. -/
def roomAfter (w : World P K) (a : Args P K) (p : P) (t : String) : Option K :=
  match roomGiven a with
  | some v => some v
  | none =>
    match shared w p t with
    | some v => some v
    | none => if a.year ∈ Dict.keys a.inputs then none else (firstOf a).toOption

/-- **C100**, opening: an account that has been opened is in the group of the pair that its arguments
ask for (by default its owner and its class) and in no other; all other accounts stay in theirs. The
shared room of the group becomes the one given, if one is; otherwise the existing one stays; if there
is none, it becomes 0 for an RRSP and what has accrued for a TFSA, unless `inputs` fix the room of the
first year. Nobody else's room changes. -/
theorem C100_opening {w w' : World P K} (hw : Made w) (a : Args P K) (ha : IsRegistered a)
    (h : openAcct w a = (w', none)) :
    ∃ p t, asked w a = some (p, t) ∧
      pairOf w' w.accts.length = some (p, t) ∧
      (∀ j, j ≠ w.accts.length → pairOf w' j = pairOf w j) ∧
      (∀ q u, members w' q u
        = if p = q ∧ t = u then members w q u ++ [w.accts.length] else members w q u) ∧
      ∀ q u, shared w' q u = if p = q ∧ t = u then roomAfter w a p t else shared w q u := by
  rcases open_cases hw.good a ha with ⟨e, h1⟩ | ⟨n, tm, e, h1⟩ | ⟨n, tm, p, t, w2, m, h1⟩
  · rw [h] at h1; cases h1
  · rw [h] at h1; cases h1
  · obtain ⟨h1, hnp, htm, h2, h3, h4, h5, h6, h7, h8, h9⟩ := h1
    have hsame := kindInit_same w2 w.accts.length
    have hr : w2.accts[w.accts.length]? = some { newObj a n tm with link := some m } := by
      rw [h4]; simp
    have hkn : (Dict.get? (w2.store p) t).isSome := h9.known m _ h5
    have hlimit : limitOf w2 { newObj a n tm with link := some m } = shared w2 p t := by
      unfold limitOf linkAt getData record
      simp only [Option.bind_some, h5, Option.map_some, get_record w2 p t hkn, Option.join]
      rfl
    rw [h2] at h
    rw [h] at hsame
    refine ⟨p, t, h1, ?_, ?_, ?_, ?_⟩
    · rw [hsame.pair, h6, if_pos rfl]
    · intro j hj
      rw [hsame.pair, h6, if_neg hj]
    · intro q u
      rw [hsame.members, h7]
    · have hroomnone : Dict.get? a.inputs a.year = none → roomOf w2
          { newObj a n tm with link := some m } = (roomGiven a).or (shared w p t) := by
        intro hin
        unfold roomOf
        have : Dict.get? (newObj a n tm).roomHist (newObj a n tm).acct.year = none := hin
        simp only [this, hlimit, h8, and_self, if_true]
      have hfirst : ∀ f : Except PyErr K, f = firstOf a →
          firstRoom w2 w.accts.length { newObj a n tm with link := some m } f = (w', none) →
          ∀ q u, shared w' q u
            = if p = q ∧ t = u then roomAfter w a p t else shared w q u := by
        intro f hf hfr q u
        by_cases hin : a.year ∈ Dict.keys a.inputs
        · have hsome : ∃ v, Dict.get? a.inputs a.year = some v := by
            cases hg : Dict.get? a.inputs a.year with
            | none => exact absurd hin (by rw [Dict.get?_eq_none] at hg; exact hg)
            | some v => exact ⟨v, rfl⟩
          obtain ⟨v, hv⟩ := hsome
          have hro : roomOf w2 { newObj a n tm with link := some m } = some v := by
            unfold roomOf
            have : Dict.get? (newObj a n tm).roomHist (newObj a n tm).acct.year = some v := hv
            simp only [this]
          unfold firstRoom at hfr
          rw [hro] at hfr
          simp only [Prod.mk.injEq, and_true] at hfr
          subst hfr
          rw [h8 q u]
          unfold roomAfter
          by_cases hq : p = q ∧ t = u
          · rw [if_pos hq, if_pos hq]
            cases roomGiven a with
            | some v => rfl
            | none =>
              rw [Option.none_or]
              cases shared w p t with
              | some v => rfl
              | none => simp only [if_pos hin]
          · rw [if_neg hq, if_neg hq]
        · have hgn : Dict.get? a.inputs a.year = none := by
            rw [Dict.get?_eq_none]; exact hin
          unfold firstRoom at hfr
          rw [hroomnone hgn] at hfr
          cases hor : (roomGiven a).or (shared w p t) with
          | some v =>
            rw [hor] at hfr
            simp only [Prod.mk.injEq, and_true] at hfr
            subst hfr
            rw [h8 q u, hor]
            by_cases hq : p = q ∧ t = u
            · rw [if_pos hq, if_pos hq]
              unfold roomAfter
              cases hrg : roomGiven a with
              | some v' => rw [hrg] at hor; simpa using hor.symm
              | none =>
                rw [hrg, Option.none_or] at hor
                rw [hor]
            · rw [if_neg hq, if_neg hq]
          | none =>
            rw [hor] at hfr
            have hg0 : roomGiven a = none := by
              cases hrg : roomGiven a with
              | none => rfl
              | some v => rw [hrg] at hor; simp at hor
            have hs0 : shared w p t = none := by
              rw [hg0, Option.none_or] at hor; exact hor
            cases f with
            | error e => simp only [Prod.mk.injEq, reduceCtorEq, and_false] at hfr
            | ok v =>
              simp only at hfr
              obtain ⟨-, -, k3⟩ := setRoom_spec w2 w.accts.length v _ m p t hr rfl h5 hkn hin
              rw [hfr] at k3
              simp only at k3
              rw [k3 q u]
              by_cases hq : p = q ∧ t = u
              · rw [if_pos hq, if_pos hq]
                unfold roomAfter
                simp only [hg0, hs0, if_neg hin, ← hf]
                rfl
              · rw [if_neg hq, if_neg hq, h8 q u, if_neg hq]
      unfold kindInit at h
      rw [hr] at h
      simp only at h
      unfold IsRegistered at ha
      have hk : (newObj a n tm).kind = a.kind := rfl
      rw [hk] at h
      unfold firstOf at hfirst
      cases hkind : a.kind with
      | plain => rw [hkind] at ha; exact ha.elim
      | rrsp e c =>
        rw [hkind] at h hfirst
        simp only at h
        cases hc : setConversionYear e (newObj a n tm).acct.year c with
        | error x => rw [hc] at h; simp at h
        | ok c' =>
          rw [hc] at h
          simp only at h
          cases hx : extendScalar e.const.accrualMax e.adj (newObj a n tm).acct.year with
          | error x => rw [hx] at h; simp at h
          | ok y =>
            rw [hx] at h
            exact hfirst _ rfl h
      | tfsa e =>
        rw [hkind] at h hfirst
        simp only at h
        cases hx : baseAccrual e with
        | error x => rw [hx] at h; simp at h
        | ok y =>
          rw [hx] at h
          exact hfirst _ rfl h

theorem pair_link {w : World P K} {i : ℕ} {r : Obj P K} {p : P} {t : String}
    (hr : w.accts[i]? = some r) (hp : pairOf w i = some (p, t)) :
    ∃ n, r.link = some n ∧ w.links[n]? = some (p, t) := by
  unfold pairOf at hp
  rw [hr, Option.bind_some] at hp
  cases hl : r.link with
  | none => rw [hl] at hp; cases hp
  | some n => rw [hl] at hp; exact ⟨n, rfl, hp⟩

theorem limitOf_pair {w : World P K} {i : ℕ} {r : Obj P K} {p : P} {t : String}
    (hr : w.accts[i]? = some r) (hp : pairOf w i = some (p, t)) : limitOf w r = shared w p t := by
  obtain ⟨n, hl, hn⟩ := pair_link hr hp
  unfold limitOf linkAt getData record shared
  rw [hl]
  simp only [Option.bind_some, hn, Option.map_some]
  cases Dict.get? (w.store p) t <;> rfl

/-- **C100**, reading and assigning: `contribution_room` of an account is what `inputs` or its history
say for the year and otherwise the shared room of its group; assigning it (in a year that `inputs` do
not fix) succeeds and changes the shared room of its group only; assigning it in a year that `inputs`
fix does nothing. -/
theorem C100_room {w : World P K} (hw : Made w) (i : ℕ) (r : Obj P K) (p : P) (t : String)
    (hr : w.accts[i]? = some r) (hp : pairOf w i = some (p, t)) :
    (roomOf w r = match Dict.get? r.roomHist r.acct.year with
      | some v => some v
      | none => shared w p t) ∧
    (r.acct.year ∉ Dict.keys r.inputs → ∀ v, (setRoom w i v).2 = none ∧
      (∀ q u, shared (setRoom w i v).1 q u = if p = q ∧ t = u then some v else shared w q u) ∧
      ∀ j r' s, pairOf w j = some (p, t) → (setRoom w i v).1.accts[j]? = some r' →
        s = Dict.get? r'.roomHist r'.acct.year → s = none → roomOf (setRoom w i v).1 r' = some v) ∧
    (r.acct.year ∈ Dict.keys r.inputs → ∀ v, setRoom w i v = (w, none)) := by
  obtain ⟨n, hl, hn⟩ := pair_link hr hp
  refine ⟨?_, ?_, fun hy v => setRoom_input w i v r hr hy⟩
  · unfold roomOf
    rw [limitOf_pair hr hp]
    cases Dict.get? r.roomHist r.acct.year <;> rfl
  · intro hy v
    obtain ⟨h1, -, h3⟩ := setRoom_spec w i v r n p t hr hl hn (hw.good.known n _ hn) hy
    refine ⟨h1, h3, ?_⟩
    intro j r' s hj hr' hs hs0
    subst hs
    have hj' : pairOf (setRoom w i v).1 j = some (p, t) := by
      rw [(setRoom_same w i v).pair]; exact hj
    unfold roomOf
    rw [hs0, limitOf_pair hr' hj', h3, if_pos ⟨rfl, rfl⟩]

/-- Specification: what is special about the class works out: for an RRSP the conversion year and the
table of maximal accruals; for a TFSA the table of accruals and, if the group has no room, what has
accrued. -/
def ClassOk (w : World P K) (a : Args P K) (p : P) (t : String) : Prop :=
  match a.kind with
  | .plain => True
  | .rrsp e c => (∃ y, setConversionYear e a.year c = .ok y) ∧
      ∃ x, extendScalar e.const.accrualMax e.adj a.year = .ok x
  | .tfsa e => (∃ x, baseAccrual e = .ok x) ∧
      ((roomGiven a).isSome ∨ (shared w p t).isSome ∨ ∃ x, inferRoom e a.inputs a.year = .ok x)

/-- **C100**, success: a registered account can be opened if nothing is given twice, its compounding
frequency and its timing are usable, its link exists and its class works out. -/
theorem C100_opens {w : World P K} (hw : Made w) (a : Args P K) (ha : IsRegistered a)
    (hroom : ¬ (a.room.isSome ∧ a.kwLimit.isSome))
    (hlink : ¬ (a.kwLink.isSome ∧ (a.contributor.isSome ∨ a.token.isSome)))
    (n : Option ℕ) (hn : nperOf a = .ok n) (tm : Dict K K) (htm : timingOf a = .ok tm)
    (p : P) (t : String) (hat : asked w a = some (p, t)) (hc : ClassOk w a p t) :
    ∃ w', openAcct w a = (w', none) := by
  have hal : ∃ al, processAliasArgs a.room a.contributor a.token a.kwLimit a.kwLink a.owner
      (a.className ++ ".max_inflow") = .ok al := by
    unfold processAliasArgs
    obtain ⟨cn, kind, owner, bal, gr, np, tm, yr, room, con, tok, kl, kw, inp⟩ := a
    cases room <;> cases kl <;> cases kw <;> cases con <;> cases tok <;>
      first
      | exact ⟨_, rfl⟩
      | exact absurd ⟨rfl, rfl⟩ hroom
      | exact absurd ⟨rfl, Or.inl rfl⟩ hlink
      | exact absurd ⟨rfl, Or.inr rfl⟩ hlink
  obtain ⟨⟨arg, limit⟩, hal⟩ := hal
  have hbi : baseInit w a = (put w a (newObj a n tm), none) := by
    unfold baseInit; rw [hn]; simp only [htm]
  have hg : Good (put w a (newObj a n tm)) := good_put hw.good a _ rfl
  obtain ⟨ht, hlim⟩ := alias_spec (put w a (newObj a n tm)) a hal
  have h2 : target (put w a (newObj a n tm)) arg = some (p, t) := ht.trans hat
  have hr : (put w a (newObj a n tm)).accts[w.accts.length]? = some (newObj a n tm) := by
    rw [put_get, if_pos rfl]
  obtain ⟨w2, m, e1, e2, e3, e4, e5, e6, e7⟩ :=
    linkInit_spec hg w.accts.length arg limit _ hr h2
  obtain ⟨f1, f2, f3, f4⟩ := linked hg hr rfl e3 e4 e5 e6 e7
  have hopen : openAcct w a = kindInit w2 w.accts.length := by
    unfold openAcct
    unfold IsRegistered at ha
    cases hk : a.kind with
    | plain => rw [hk] at ha; exact ha.elim
    | rrsp e c => simp only [hal, hbi, andThen, e1]
    | tfsa e => simp only [hal, hbi, andThen, e1]
  rw [hopen]
  have hlt : w.accts.length < (put w a (newObj a n tm)).accts.length := by unfold put; simp
  have hr2 : w2.accts[w.accts.length]? = some { newObj a n tm with link := some m } := by
    rw [e6, List.getElem?_set_self hlt]
  have hkn : (Dict.get? (w2.store p) t).isSome := f4.known m _ e3
  have hroomw : ∀ r', w2.accts[w.accts.length]? = some r' →
      limitOf w2 r' = (roomGiven a).or (shared w p t) := by
    intro r' hr'
    rw [limitOf_pair hr' (by rw [f1, if_pos rfl]), f3, if_pos ⟨rfl, rfl⟩, hlim]
    rfl
  have hfirst : ∀ (r' : Obj P K) (f : Except PyErr K), w2.accts[w.accts.length]? = some r' →
      r'.link = some m →
      ((roomGiven a).isSome ∨ (shared w p t).isSome ∨ ∃ x, f = .ok x) →
      ∃ w', firstRoom w2 w.accts.length r' f = (w', none) := by
    intro r' f hr' hl' hf
    unfold firstRoom
    cases hro : roomOf w2 r' with
    | some v => exact ⟨w2, rfl⟩
    | none =>
      have hnone : (roomGiven a).or (shared w p t) = none := by
        unfold roomOf at hro
        cases hgd : Dict.get? r'.roomHist r'.acct.year with
        | some v => rw [hgd] at hro; cases hro
        | none => rw [hgd] at hro; rw [← hroomw r' hr']; exact hro
      have hx : ∃ x, f = .ok x := by
        rcases hf with h | h | h
        · cases hrg : roomGiven a with
          | none => rw [hrg] at h; cases h
          | some v => rw [hrg] at hnone; simp at hnone
        · cases hrg : roomGiven a with
          | none =>
            rw [hrg, Option.none_or] at hnone
            rw [hnone] at h; cases h
          | some v => rw [hrg] at hnone; simp at hnone
        · exact h
      obtain ⟨x, rfl⟩ := hx
      simp only
      by_cases hy : r'.acct.year ∈ Dict.keys r'.inputs
      · exact ⟨_, setRoom_input w2 _ x r' hr' hy⟩
      · obtain ⟨k1, -, -⟩ := setRoom_spec w2 w.accts.length x r' m p t hr' hl' e3 hkn hy
        exact ⟨_, Prod.ext rfl k1⟩
  unfold kindInit
  rw [hr2]
  simp only
  have hk : (newObj a n tm).kind = a.kind := rfl
  rw [hk]
  unfold ClassOk at hc
  have hr3 : w2.accts[w.accts.length]? = some (Obj.mk a.kind (newObj a n tm).owner (some m)
      (newObj a n tm).acct (newObj a n tm).roomHist (newObj a n tm).inputs) := hr2
  cases hkind : a.kind with
  | plain => exact ⟨w2, rfl⟩
  | rrsp e c =>
    rw [hkind] at hc hr3
    obtain ⟨⟨y, hy⟩, x, hx⟩ := hc
    have hy : setConversionYear e (newObj a n tm).acct.year c = .ok y := hy
    have hx : extendScalar e.const.accrualMax e.adj (newObj a n tm).acct.year = .ok x := hx
    simp only [hy, hx]
    exact hfirst _ _ hr3 rfl (Or.inr (Or.inr ⟨0, rfl⟩))
  | tfsa e =>
    rw [hkind] at hc hr3
    obtain ⟨⟨x, hx⟩, hroom⟩ := hc
    simp only [hx]
    exact hfirst _ _ hr3 rfl hroom

/-- **C100**, refuted: if `inputs` fix the room of the first year and the group has no room yet, the
account says that it has that room, but nobody can ask what may be contributed to it:
`max_inflows` raises `TypeError`, whatever is asked for. -/
theorem C100_inputs_refuted {w w' : World P K} (hw : Made w) (a : Args P K) (ha : IsRegistered a)
    (h : openAcct w a = (w', none)) (p : P) (t : String) (hat : asked w a = some (p, t))
    (hg : roomGiven a = none) (hs : shared w p t = none) (v : K)
    (hv : Dict.get? a.inputs a.year = some v) :
    (∃ r, w'.accts[w.accts.length]? = some r ∧ roomOf w' r = some v) ∧
    ∀ k, maxInflowsOf w' w.accts.length k = .error .typeError := by
  have hin : a.year ∈ Dict.keys a.inputs := by
    by_contra hc
    rw [Dict.get?_eq_none.mpr hc] at hv; cases hv
  rcases open_cases hw.good a ha with ⟨e, h1⟩ | ⟨n, tm, e, h1⟩ | ⟨n, tm, p', t', w2, m, h1⟩
  · rw [h] at h1; cases h1
  · rw [h] at h1; cases h1
  · obtain ⟨h1, hnp, htm, h2, h3, h4, h5, h6, h7, h8, h9⟩ := h1
    rw [hat] at h1
    cases h1
    have hr : w2.accts[w.accts.length]? = some { newObj a n tm with link := some m } := by
      rw [h4]; simp
    have hkn : (Dict.get? (w2.store p) t).isSome := h9.known m _ h5
    have hro : roomOf w2 { newObj a n tm with link := some m } = some v := by
      unfold roomOf
      have : Dict.get? (newObj a n tm).roomHist (newObj a n tm).acct.year = some v := hv
      simp only [this]
    have hw2 : w' = w2 := by
      have hfr : ∀ r' f, roomOf w2 r' = some v →
          firstRoom w2 w.accts.length r' f = (w', none) → w' = w2 := by
        intro r' f hro h
        unfold firstRoom at h
        rw [hro] at h
        simp only [Prod.mk.injEq, and_true] at h
        exact h.symm
      rw [h2] at h
      unfold kindInit at h
      rw [hr] at h
      simp only at h
      have hk : (newObj a n tm).kind = a.kind := rfl
      rw [hk] at h
      cases hkind : a.kind with
      | plain =>
        rw [hkind] at h
        simp only [Prod.mk.injEq, and_true] at h
        exact h.symm
      | rrsp e c =>
        rw [hkind] at h
        simp only at h
        cases hc : setConversionYear e (newObj a n tm).acct.year c with
        | error x => rw [hc] at h; simp at h
        | ok c' =>
          rw [hc] at h
          simp only at h
          cases hx : extendScalar e.const.accrualMax e.adj (newObj a n tm).acct.year with
          | error x => rw [hx] at h; simp at h
          | ok y =>
            rw [hx] at h
            refine hfr _ _ ?_ h
            exact hro
      | tfsa e =>
        rw [hkind] at h
        simp only at h
        cases hx : baseAccrual e with
        | error x => rw [hx] at h; simp at h
        | ok y =>
          rw [hx] at h
          refine hfr _ _ ?_ h
          exact hro
    subst hw2
    refine ⟨⟨_, hr, hro⟩, ?_⟩
    intro k
    have hsh : shared w' p t = none := by
      rw [h8 p t, if_pos ⟨rfl, rfl⟩, hg, hs]; rfl
    unfold maxInflowsOf linkAt record
    rw [hr]
    simp only [Option.bind_some, h5, Option.map_some, get_record w' p t hkn, hsh]

/-! ## C101 -/

/-- Specification: the arguments that `_process_alias_args` refuses (registered_account.py:165-221):
the same thing given twice. -/
def Clash (a : Args P K) : Prop :=
  (a.room.isSome ∧ a.kwLimit.isSome) ∨
  (a.kwLink.isSome ∧ (a.contributor.isSome ∨ a.token.isSome))

theorem alias_clash (a : Args P K) :
    (Clash a → processAliasArgs a.room a.contributor a.token a.kwLimit a.kwLink a.owner
      (a.className ++ ".max_inflow") = .error .valueError) ∧
    (¬ Clash a → ∃ al, processAliasArgs a.room a.contributor a.token a.kwLimit a.kwLink a.owner
      (a.className ++ ".max_inflow") = .ok al) := by
  unfold Clash processAliasArgs
  obtain ⟨cn, kind, owner, bal, gr, np, tm, yr, room, con, tok, kl, kw, inp⟩ := a
  cases room <;> cases kl <;> cases kw <;> cases con <;> cases tok <;>
    first
    | exact ⟨fun _ => rfl, fun h => absurd (by simp) h⟩
    | exact ⟨fun h => by simp at h, fun _ => ⟨_, rfl⟩⟩

/-- Nothing but links, shared limits and records of rooms changes. -/
structure Body (w w' : World P K) : Prop where
  owned : w'.owned = w.owned
  length : w'.accts.length = w.accts.length
  body : ∀ i : ℕ, (w'.accts[i]?).map (fun r => (r.kind, r.owner, r.acct))
    = (w.accts[i]?).map (fun r => (r.kind, r.owner, r.acct))

theorem Body.refl (w : World P K) : Body w w := ⟨rfl, rfl, fun _ => rfl⟩

theorem Body.trans {w1 w2 w3 : World P K} (h : Body w1 w2) (h' : Body w2 w3) : Body w1 w3 :=
  ⟨h'.owned.trans h.owned, h'.length.trans h.length, fun i => (h'.body i).trans (h.body i)⟩

theorem set_body (l : List (Obj P K)) (i j : ℕ) (r r' : Obj P K) (hr : l[i]? = some r)
    (hl : (r'.kind, r'.owner, r'.acct) = (r.kind, r.owner, r.acct)) :
    ((l.set i r')[j]?).map (fun r => (r.kind, r.owner, r.acct))
      = (l[j]?).map (fun r => (r.kind, r.owner, r.acct)) := by
  rw [List.getElem?_set]
  split
  · rename_i h
    subst h
    split
    · rw [hr, Option.map_some, Option.map_some, hl]
    · rename_i h2
      rw [List.getElem?_eq_none (by omega)]
  · rfl

theorem setRoom_body (w : World P K) (i : ℕ) (v : K) : Body w (setRoom w i v).1 := by
  unfold setRoom
  cases hr : w.accts[i]? with
  | none => exact Body.refl w
  | some r =>
    simp only
    split
    · exact Body.refl w
    · have h1 : ∀ j : ℕ, ((w.accts.set i { r with
          roomHist := Dict.del r.roomHist r.acct.year })[j]?).map
            (fun r => (r.kind, r.owner, r.acct))
          = (w.accts[j]?).map (fun r => (r.kind, r.owner, r.acct)) :=
        fun j => set_body _ i j r _ hr rfl
      cases r.link.bind (linkAt { w with
        accts := w.accts.set i { r with roomHist := Dict.del r.roomHist r.acct.year } }) with
      | none => exact ⟨rfl, by simp, h1⟩
      | some l =>
        simp only
        cases setData w.store l (some v) with
        | error e => exact ⟨rfl, by simp, h1⟩
        | ok s => exact ⟨rfl, by simp, h1⟩

theorem firstRoom_body (w : World P K) (i : ℕ) (r : Obj P K) (f : Except PyErr K) :
    Body w (firstRoom w i r f).1 := by
  unfold firstRoom
  cases roomOf w r with
  | some v => exact Body.refl w
  | none =>
    cases f with
    | error e => exact Body.refl w
    | ok v => exact setRoom_body w i v

theorem kindInit_body (w : World P K) (i : ℕ) : Body w (kindInit w i).1 := by
  unfold kindInit
  cases w.accts[i]? with
  | none => exact Body.refl w
  | some r =>
    simp only
    cases r.kind with
    | plain => exact Body.refl w
    | rrsp e c =>
      simp only
      cases setConversionYear e r.acct.year c with
      | error x => exact Body.refl w
      | ok c =>
        simp only
        cases extendScalar e.const.accrualMax e.adj r.acct.year with
        | error x => exact Body.refl w
        | ok y => exact firstRoom_body w i r _
    | tfsa e =>
      simp only
      cases baseAccrual e with
      | error x => exact Body.refl w
      | ok y => exact firstRoom_body w i r _

theorem linkInit_body (w : World P K) (i : ℕ) (arg : LinkArg P ⊕ (P × String)) (limit : Option K) :
    Body w (linkInit w i arg limit).1 := by
  unfold linkInit
  have ho : ∃ l2 n f, linkObj w arg = ({ w with links := l2 }, n, f) := by
    cases arg with
    | inl la => cases la with
      | obj n => exact ⟨w.links, n, false, rfl⟩
      | pair p t => exact ⟨_, _, _, rfl⟩
    | inr pt => exact ⟨_, _, _, rfl⟩
  obtain ⟨l2, n, f, ho⟩ := ho
  rw [ho]
  simp only
  cases linkAt { w with links := l2 } n with
  | none => exact ⟨rfl, rfl, fun _ => rfl⟩
  | some l =>
    cases hr : w.accts[i]? with
    | none => exact ⟨rfl, rfl, fun _ => rfl⟩
    | some r =>
      simp only
      cases join w.store l f i limit with
      | error e => exact ⟨rfl, rfl, fun _ => rfl⟩
      | ok s => exact ⟨rfl, by simp, fun j => set_body _ i j r _ hr rfl⟩

/-- Specification: how the account compounds after its constructor has got as far as it gets: once a
year if no `nper` was given, else as often as `frequency_conv` says (C08); continuously, if `nper` was
refused. -/
def compounding (a : Args P K) : Option ℕ :=
  match a.nper with
  | .none => some 1
  | f =>
    match frequencyConv f with
    | .ok n => n
    | .error _ => none

theorem compounding_eq (a : Args P K) : compounding a = match nperOf a with
    | .ok n => n
    | .error _ => none := by
  unfold compounding nperOf
  cases a.nper <;> rfl

/-- Unless arguments clash, a constructor changes no accounts beyond what `Account.__init__` makes. -/
theorem open_base (w : World P K) (a : Args P K) (h : ¬ (IsRegistered a ∧ Clash a)) :
    Body (baseInit w a).1 (openAcct w a).1 := by
  have hreg : IsRegistered a → Body (baseInit w a).1 (match processAliasArgs a.room a.contributor
      a.token a.kwLimit a.kwLink a.owner (a.className ++ ".max_inflow") with
    | .error e => (w, some e)
    | .ok (arg, limit) =>
      andThen (baseInit w a) fun w1 =>
        andThen (linkInit w1 w.accts.length arg limit) fun w2 =>
          kindInit w2 w.accts.length).1 := by
    intro hr
    obtain ⟨⟨arg, limit⟩, hal⟩ := (alias_clash a).2 fun hc => h ⟨hr, hc⟩
    rw [hal]
    simp only
    rcases hbi : baseInit w a with ⟨w1, e⟩
    cases e with
    | some e => exact Body.refl w1
    | none =>
      simp only [andThen]
      have h1 := linkInit_body w1 w.accts.length arg limit
      rcases hli : linkInit w1 w.accts.length arg limit with ⟨w2, e⟩
      rw [hli] at h1
      cases e with
      | some e => exact h1
      | none => exact h1.trans (kindInit_body w2 _)
  unfold openAcct
  unfold IsRegistered at hreg
  cases hk : a.kind with
  | plain => exact Body.refl _
  | rrsp e c => rw [hk] at hreg; exact hreg trivial
  | tfsa e => rw [hk] at hreg; exact hreg trivial

/-- Unless arguments clash, the constructor makes the object and tells the owner. -/
theorem open_body (w : World P K) (a : Args P K) (h : ¬ (IsRegistered a ∧ Clash a)) :
    ∃ tm, Body (put w a (newObj a (compounding a) tm)) (openAcct w a).1 := by
  have hbase : ∃ tm, (baseInit w a).1 = put w a (newObj a (compounding a) tm) := by
    rw [compounding_eq]
    unfold baseInit
    cases nperOf a with
    | error e => exact ⟨[], rfl⟩
    | ok n =>
      cases timingOf a with
      | error e => exact ⟨[], rfl⟩
      | ok tm => exact ⟨tm, rfl⟩
  obtain ⟨tm, hb⟩ := hbase
  refine ⟨tm, ?_⟩
  rw [← hb]
  exact open_base w a h

/-- **C101**: what the new account holds, unless arguments clash or `nper` or the default timing are
refused, whether or not a later part of the constructor raises: the balance given, growing at the rate
given, in the year given, without transactions; and payments whose timing is not given are made as the
default timing given says, or in the middle of the year if none was given. -/
theorem C101_new_account (w : World P K) (a : Args P K) (h : ¬ (IsRegistered a ∧ Clash a))
    {n : Option ℕ} {tm : Dict K K} (hn : nperOf a = .ok n) (htm : timingOf a = .ok tm) :
    ((openAcct w a).1.accts[w.accts.length]?).map (fun r => (r.kind, r.owner, r.acct))
      = some (a.kind, a.owner, Account.init a.year a.balance (a.growth (compounding a)) tm) ∧
    (a.timing = none → tm = [(1 / 2, 1)]) ∧ (∀ d, a.timing = some (.timing d) → tm = d) ∧
    ∀ x, a.timing = some (.dict x) → Timing.init (.dict x) (.num 1) = .ok tm := by
  refine ⟨?_, fun ht => ?_, fun d ht => ?_, fun x ht => ?_⟩
  · rw [(open_base w a h).body, compounding_eq, hn]
    unfold baseInit
    rw [hn]
    simp only [htm]
    simp [put, newObj]
  · unfold timingOf at htm
    rw [ht] at htm
    have h1 : whenConv (whenDefault : When K) = .ok (1 / 2) :=
      Timing.whenConv_ok (by norm_num) (by norm_num)
    have h2 : frequencyConv (.num 1) = .ok (some 1) := by decide +kernel
    simp only [Timing.init, whenDefault] at htm
    rw [show Timing.initScalar (.num (1 / 2 : K)) (.num 1) = .ok [(1 / 2, 1)] from by
      unfold Timing.initScalar
      rw [show whenConv (.num (1 / 2 : K)) = .ok (1 / 2) from h1, h2]
      simp [bind, Except.bind, Dict.set]] at htm
    cases htm
    rfl
  · unfold timingOf at htm
    rw [ht] at htm
    cases htm
    rfl
  · unfold timingOf at htm
    rw [ht] at htm
    exact htm

/-- A case of it: 1000 at 5% without a timing. -/
example : timingOf ({ className := "Account", kind := .plain, owner := 0, balance := 1000, growth := fun _ _ t => 1 + t / 20, nper := .none, timing := none, year := 2020, room := none, contributor := none, token := none, kwLimit := none, kwLink := none, inputs := [] } : Args ℕ ℚ) = .ok [(1 / 2, 1)] := by decide +kernel

/-- **C101**: a constructor whose arguments clash changes nothing. -/
theorem C101_clash (w : World P K) (a : Args P K) (hr : IsRegistered a) (h : Clash a) :
    openAcct w a = (w, some .valueError) := by
  unfold openAcct
  rw [(alias_clash a).1 h]
  unfold IsRegistered at hr
  cases hk : a.kind with
  | plain => rw [hk] at hr; exact hr.elim
  | rrsp e c => rfl
  | tfsa e => rfl

/-- **C101**: every other constructor - whether it succeeds or raises, and whatever the reason - leaves
a new account among its owner's accounts, with the owner, the class and the balance that were asked
for. -/
theorem C101_ghost (w : World P K) (a : Args P K) (h : ¬ (IsRegistered a ∧ Clash a)) :
    (openAcct w a).1.owned a.owner = w.owned a.owner ++ [w.accts.length] ∧
    (∀ p, p ≠ a.owner → (openAcct w a).1.owned p = w.owned p) ∧
    (openAcct w a).1.accts.length = w.accts.length + 1 ∧
    ∃ r, (openAcct w a).1.accts[w.accts.length]? = some r ∧ r.owner = a.owner ∧
      r.kind = a.kind ∧ Account.balance r.acct = .ok a.balance := by
  obtain ⟨tm, hb⟩ := open_body w a h
  refine ⟨?_, ?_, ?_, ?_⟩
  · rw [hb.owned]; simp [put]
  · intro p hp
    rw [hb.owned]; simp [put, hp]
  · rw [hb.length]; simp [put]
  · have h1 := hb.body w.accts.length
    rw [put_get, if_pos rfl] at h1
    cases hr : (openAcct w a).1.accts[w.accts.length]? with
    | none => rw [hr] at h1; cases h1
    | some r =>
      rw [hr] at h1
      simp only [Option.map_some, Option.some.injEq, Prod.mk.injEq] at h1
      obtain ⟨e1, e2, e3⟩ := h1
      refine ⟨r, rfl, e2, e1, ?_⟩
      rw [e3]
      simp [newObj, Account.init, Account.balance, Dict.get?]

/-! ### Whose income counts -/

/-- Owners know accounts that exist. -/
def Known (w : World P K) : Prop := ∀ p, ∀ i ∈ w.owned p, i < w.accts.length

theorem known_body {w w' : World P K} (h : Body w w') (hk : Known w) : Known w' := by
  intro p i hi
  rw [h.owned] at hi
  rw [h.length]; exact hk p i hi

theorem known_put {w : World P K} (hk : Known w) (a : Args P K) (r : Obj P K) :
    Known (put w a r) := by
  intro p i hi
  unfold put at hi ⊢
  simp only at hi ⊢
  rw [List.length_append, List.length_singleton]
  split at hi
  · rcases List.mem_append.mp hi with h | h
    · have := hk p i h; omega
    · simp only [List.mem_singleton] at h; omega
  · have := hk p i hi; omega

theorem known_open {w : World P K} (hk : Known w) (a : Args P K) : Known (openAcct w a).1 := by
  by_cases h : IsRegistered a ∧ Clash a
  · rw [C101_clash w a h.1 h.2]; exact hk
  · obtain ⟨tm, hb⟩ := open_body w a h
    exact known_body hb (known_put hk a _)

theorem known_run (ops : List (Op P K)) : Known (run (empty : World P K) ops) := by
  unfold run
  have : ∀ (l : List (Op P K)) (w : World P K), Known w →
      Known (l.foldl (fun w op => (step w op).1) w) := by
    intro l
    induction l with
    | nil => intro w hw; exact hw
    | cons op l ih =>
      intro w hw
      refine ih _ ?_
      cases op with
      | «open» a => exact known_open hw a
      | link p t d => exact hw
      | setRoom i v => exact known_body (setRoom_body w i v) hw
      | setContributor i p =>
        simp only [step]
        unfold setContributor
        cases (w.accts[i]?).bind Obj.link with
        | none => exact hw
        | some n =>
          simp only
          cases w.links[n]? with
          | none => exact hw
          | some pt => exact hw
      | add i v when =>
        have := addTo_same w i v when
        intro p j hj
        have hj : j ∈ (addTo w i v when).1.owned p := hj
        rw [this.owned] at hj
        exact lt_of_lt_of_eq (hw p j hj) this.length.symm
  exact this ops _ (by intro p i hi; simp [empty] at hi)

/-- The income of the account with number `i`. -/
def incomeAt (w : World P K) (i : ℕ) : Except PyErr K :=
  match w.accts[i]? with
  | none => .error .indexError
  | some r => incomeOf r

theorem accountIncome_eq (w : World P K) (p : P) :
    accountIncome w p
      = (w.owned p).foldlM (fun s i => do let x ← incomeAt w i; .ok (s + x)) 0 := by
  unfold accountIncome incomeAt
  congr 1
  funext s i
  cases w.accts[i]? <;> rfl

theorem incomeOf_congr {r r' : Obj P K} (h : (r.kind, r.owner, r.acct) = (r'.kind, r'.owner, r'.acct)) :
    incomeOf r = incomeOf r' := by
  simp only [Prod.mk.injEq] at h
  unfold incomeOf
  rw [h.1, h.2.2]

theorem incomeAt_body {w w' : World P K} (h : Body w w') (i : ℕ) : incomeAt w' i = incomeAt w i := by
  unfold incomeAt
  have := h.body i
  cases h1 : w'.accts[i]? with
  | none =>
    cases h2 : w.accts[i]? with
    | none => rfl
    | some r => rw [h1, h2] at this; cases this
  | some r' =>
    cases h2 : w.accts[i]? with
    | none => rw [h1, h2] at this; cases this
    | some r =>
      rw [h1, h2, Option.map_some, Option.map_some, Option.some.injEq] at this
      exact incomeOf_congr this

theorem foldlM_congr {α β : Type} (f g : α → β → Except PyErr α) (l : List β)
    (h : ∀ b ∈ l, ∀ a, f a b = g a b) (a : α) : l.foldlM f a = l.foldlM g a := by
  induction l generalizing a with
  | nil => rfl
  | cons b l ih =>
    rw [List.foldlM_cons, List.foldlM_cons, h b (by simp)]
    congr 1
    funext c
    exact ih (fun b hb => h b (by simp [hb])) c

/-- What opening an account adds to everybody's income. -/
theorem income_open {w : World P K} (hk : Known w) (a : Args P K)
    (h : ¬ (IsRegistered a ∧ Clash a)) (p : P) :
    accountIncome (openAcct w a).1 p =
      if p = a.owner then do
        let s ← accountIncome w p
        let x ← incomeOf (newObj a (compounding a) [])
        .ok (s + x)
      else accountIncome w p := by
  obtain ⟨tm, hb⟩ := open_body w a h
  have hat : ∀ i, incomeAt (openAcct w a).1 i = if i = w.accts.length
      then incomeOf (newObj a (compounding a) tm) else incomeAt w i := by
    intro i
    rw [incomeAt_body hb]
    unfold incomeAt
    rw [put_get]
    by_cases hi : i = w.accts.length
    · rw [if_pos hi, if_pos hi]
    · rw [if_neg hi, if_neg hi]
  have hold : ∀ q s, (w.owned q).foldlM
      (fun s i => do let x ← incomeAt (openAcct w a).1 i; (.ok (s + x) : Except PyErr K)) s
      = (w.owned q).foldlM (fun s i => do let x ← incomeAt w i; (.ok (s + x) : Except PyErr K)) s := by
    intro q s
    refine foldlM_congr _ _ _ ?_ s
    intro i hi s
    have := hk q i hi
    rw [hat, if_neg (by omega)]
  have htm : incomeOf (newObj a (compounding a) tm) = incomeOf (newObj a (compounding a) []) := by
    unfold incomeOf newObj Account.taxableIncome Account.returns Account.balance rrspTaxableIncome
      outflows Account.init Acct.A
    cases a.kind <;> rfl
  by_cases hp : p = a.owner
  · rw [if_pos hp, accountIncome_eq, accountIncome_eq]
    have ho : (openAcct w a).1.owned p = w.owned p ++ [w.accts.length] := by
      rw [hb.owned]; simp [put, hp]
    rw [ho, List.foldlM_append, hold]
    congr 1
    funext s
    rw [List.foldlM_cons, hat, if_pos rfl, htm]
    cases incomeOf (newObj a (compounding a) []) <;> rfl
  · rw [if_neg hp, accountIncome_eq, accountIncome_eq]
    have ho : (openAcct w a).1.owned p = w.owned p := by
      rw [hb.owned]; simp [put, hp]
    rw [ho, hold]

/-- Specification: the interest that a new account makes in its first year, if positive. -/
def firstInterest (a : Args P K) : K :=
  max (a.balance * (a.growth (compounding a) a.year 1 - 1)) 0

/-- **C101**, whose income: opening a plain account - whether its constructor returns or raises - adds
the interest on its balance to its owner's taxable income, compounded continuously if its `nper` was
refused. Nobody else's changes. -/
theorem C101_income (ops : List (Op P K)) (a : Args P K) (h : a.kind = .plain) (p : P) :
    accountIncome (openAcct (run empty ops) a).1 p =
      (accountIncome (run empty ops) p).map fun s => if p = a.owner then s + firstInterest a else s := by
  have hc : ¬ (IsRegistered a ∧ Clash a) := by
    rintro ⟨h1, -⟩; unfold IsRegistered at h1; rw [h] at h1; exact h1
  rw [income_open (known_run ops) a hc]
  have hx : incomeOf (newObj a (compounding a) []) = .ok (firstInterest a) := by
    have hk : (newObj a (compounding a) []).kind = .plain := h
    unfold incomeOf
    rw [hk]
    simp [newObj, Account.taxableIncome, Account.returns, Account.init, Account.balance, Acct.A,
      Dict.get?, Dict.keys, firstInterest, ok_bind]
  rw [hx]
  by_cases hp : p = a.owner
  · simp only [if_pos hp]
    cases accountIncome (run empty ops) p <;> rfl
  · simp only [if_neg hp]
    cases accountIncome (run empty ops) p <;> rfl

/-- **C101**, registered accounts: opening an RRSP or a TFSA - whether its constructor returns or
raises - changes nobody's taxable income, whatever it holds. -/
theorem C101_income_registered (ops : List (Op P K)) (a : Args P K) (h : IsRegistered a)
    (hc : ¬ Clash a) (p : P) :
    accountIncome (openAcct (run empty ops) a).1 p = accountIncome (run empty ops) p := by
  rw [income_open (known_run ops) a (fun hh => hc hh.2)]
  have hx : incomeOf (newObj a (compounding a) []) = .ok 0 := by
    have hk : (newObj a (compounding a) []).kind = a.kind := rfl
    unfold IsRegistered at h
    unfold incomeOf
    rw [hk]
    cases e : a.kind with
    | plain => rw [e] at h; exact h.elim
    | rrsp => simp [newObj, rrspTaxableIncome, outflows, Account.init, Account.negSum]
    | tfsa => rfl
  rw [hx]
  by_cases hp : p = a.owner
  · simp only [if_pos hp]
    cases accountIncome (run empty ops) p with
    | error _ => rfl
    | ok s => simp [ok_bind]
  · simp only [if_neg hp]

/-- **C101**, refuted: after a constructor has failed on its `nper` and has been called again with a
better one, the owner's taxable income exceeds what it would be had the first call not been made by the
interest on the balance of the account that was never returned. -/
theorem C101_retry_refuted (ops : List (Op P K)) (a b : Args P K) (ha : a.kind = .plain)
    (hb : b.kind = .plain) (ho : b.owner = a.owner) (e : PyErr) (hf : frequencyConv a.nper = .error e)
    (hpos : 0 < a.balance * (a.growth none a.year 1 - 1)) (s : K)
    (hs : accountIncome (openAcct (run empty ops) b).1 a.owner = .ok s) :
    (openAcct (run empty ops) a).2 = some e ∧
    ∃ s', accountIncome (run empty (ops ++ [.open a, .open b])) a.owner = .ok s' ∧ s < s' := by
  have hn : nperOf a = .error e := by
    unfold nperOf
    cases hnp : a.nper with
    | none => rw [hnp] at hf; cases hf
    | str s => rw [hnp] at hf; exact hf
    | num q => rw [hnp] at hf; exact hf
  have hfail : (openAcct (run empty ops) a).2 = some e := by
    unfold openAcct
    rw [ha]
    simp only
    unfold baseInit
    rw [hn]
  refine ⟨hfail, ?_⟩
  have h1 := C101_income ops a ha a.owner
  have h2 := C101_income ops b hb a.owner
  have h3 := C101_income (ops ++ [.open a]) b hb a.owner
  have hrun : run (empty : World P K) (ops ++ [.open a]) = (openAcct (run empty ops) a).1 := by
    unfold run; rw [List.foldl_append]; rfl
  have hrun2 : run (empty : World P K) (ops ++ [.open a, .open b])
      = (openAcct (run empty (ops ++ [.open a])) b).1 := by
    unfold run; rw [List.foldl_append, List.foldl_append]; rfl
  rw [hrun2, h3, hrun, h1]
  rw [h2] at hs
  cases hw : accountIncome (run (empty : World P K) ops) a.owner with
  | error x => rw [hw] at hs; cases hs
  | ok s0 =>
    rw [hw] at hs
    simp only [Except.map, ho, if_true, Except.ok.injEq] at hs ⊢
    refine ⟨_, rfl, ?_⟩
    subst hs
    have : 0 < firstInterest a := by
      unfold firstInterest
      rw [compounding_eq, hn]
      exact lt_max_of_lt_left hpos
    linarith

/-- **C101**, late conversion: an RRSP whose conversion year is refused has nevertheless joined its
group - and has replaced the group's room, if a room was given. -/
theorem C101_late_conversion {w : World P K} (hw : Made w) (a : Args P K) (e : RrspEnv K) (y m : ℤ)
    (hk : a.kind = .rrsp e (some y)) (hc : ¬ Clash a) (n : Option ℕ) (hn : nperOf a = .ok n)
    (tm : Dict K K) (htm : timingOf a = .ok tm) (p : P) (t : String)
    (hat : asked w a = some (p, t)) (hm : maxConversionYear e a.year = .ok m) (hy : m < y) :
    (openAcct w a).2 = some .valueError ∧
    w.accts.length ∈ members (openAcct w a).1 p t ∧
    shared (openAcct w a).1 p t = (roomGiven a).or (shared w p t) := by
  have hreg : IsRegistered a := by unfold IsRegistered; rw [hk]; trivial
  obtain ⟨⟨arg, limit⟩, hal⟩ := (alias_clash a).2 hc
  rcases open_cases hw.good a hreg with ⟨e', h1⟩ | ⟨n', tm', e', h1⟩ |
    ⟨n', tm', p', t', w2, m', h1, hnp, htm', h2, h3, h4, h5, h6, h7, h8, h9⟩
  · exfalso
    obtain ⟨-, -, hl, -⟩ := C101_ghost w a (fun h => hc h.2)
    rw [h1] at hl
    simp at hl
  · exfalso
    -- the base constructor succeeds and the group exists
    have hbi : baseInit w a = (put w a (newObj a n tm), none) := by
      unfold baseInit; rw [hn]; simp only [htm]
    have hg : Good (put w a (newObj a n tm)) := good_put hw.good a _ rfl
    obtain ⟨ht, hlim⟩ := alias_spec (put w a (newObj a n tm)) a hal
    have h2 : target (put w a (newObj a n tm)) arg = some (p, t) := ht.trans hat
    have hr : (put w a (newObj a n tm)).accts[w.accts.length]? = some (newObj a n tm) := by
      rw [put_get, if_pos rfl]
    obtain ⟨w2, m', e1, e2, e3, e4, e5, e6, e7⟩ :=
      linkInit_spec hg w.accts.length arg limit _ hr h2
    obtain ⟨f1, f2, f3, f4⟩ := linked hg hr rfl e3 e4 e5 e6 e7
    have hopen : openAcct w a = kindInit w2 w.accts.length := by
      unfold openAcct
      rw [hk, hal]
      simp only [hbi, andThen, e1]
    have hs := kindInit_same w2 w.accts.length
    rw [← hopen, h1] at hs
    have := hs.pair w.accts.length
    rw [f1, if_pos rfl] at this
    unfold pairOf at this
    rw [put_link w a _ rfl, List.getElem?_eq_none (le_refl _)] at this
    cases this
  · rw [hat] at h1
    cases h1
    have hr : w2.accts[w.accts.length]? = some { newObj a n' tm' with link := some m' } := by
      rw [h4]; simp
    have hki : kindInit w2 w.accts.length = (w2, some .valueError) := by
      unfold kindInit
      rw [hr]
      simp only
      have hk' : (newObj a n' tm').kind = .rrsp e (some y) := hk
      rw [hk']
      simp only
      have : setConversionYear e (newObj a n' tm').acct.year (some y) = .error .valueError := by
        have hm' : maxConversionYear e (newObj a n' tm').acct.year = .ok m := hm
        unfold setConversionYear
        simp only [hm', ok_bind, if_pos hy]
      rw [this]
    rw [h2, hki]
    refine ⟨rfl, ?_, ?_⟩
    · rw [h7, if_pos ⟨rfl, rfl⟩]; simp
    · rw [h8, if_pos ⟨rfl, rfl⟩]

/-! ## C102 -/

theorem setContributor_eq {w : World P K} {i : ℕ} {r : Obj P K} {q : P} {t : String}
    (hr : w.accts[i]? = some r) (hp : pairOf w i = some (q, t)) (p : P) :
    ∃ n, r.link = some n ∧ w.links[n]? = some (q, t) ∧
      setContributor w i p = ({ w with links := w.links.set n (p, t) }, none) := by
  obtain ⟨n, hl, hn⟩ := pair_link hr hp
  refine ⟨n, hl, hn, ?_⟩
  unfold setContributor
  simp only [hr, Option.bind_some, hl, hn]

/-- **C102**: reassigning `account.contributor` makes the account say that it is the new contributor's
and read the new contributor's shared room, but no group changes: it remains a member of the group of
the old contributor and does not become one of the group of the new one. -/
theorem C102_groups {w : World P K} (hw : Made w) (i : ℕ) (r : Obj P K) (q : P) (t : String)
    (hr : w.accts[i]? = some r) (hp : pairOf w i = some (q, t)) (p : P) (hne : p ≠ q) :
    ∃ w', setContributor w i p = (w', none) ∧ pairOf w' i = some (p, t) ∧
      (∀ o u, members w' o u = members w o u ∧ shared w' o u = shared w o u) ∧
      i ∈ members w' q t ∧ i ∉ members w' p t ∧
      limitOf w' r = shared w p t := by
  obtain ⟨n, hl, hn, hs⟩ := setContributor_eq hr hp p
  have hlt : n < w.links.length := hw.good.bound i r n hr hl
  have hp' : pairOf { w with links := w.links.set n (p, t) } i = some (p, t) := by
    unfold pairOf
    simp only [hr, Option.bind_some, hl, List.getElem?_set_self hlt]
  refine ⟨_, hs, hp', fun _ _ => ⟨rfl, rfl⟩, ?_, ?_, ?_⟩
  · exact (hw.good.group q t i).mpr hp
  · intro h
    have h := (hw.good.group p t i).mp h
    rw [hp] at h
    simp only [Option.some.injEq, Prod.mk.injEq, and_true] at h
    exact hne h.symm
  · exact limitOf_pair hr hp'

/-- **C102**, refuted: if the new contributor has no account of that class, the account is unusable:
`max_inflows` raises `TypeError`, and its room can be neither read nor assigned. -/
theorem C102_unusable {w : World P K} (hw : Made w) (i : ℕ) (r : Obj P K) (q : P) (t : String)
    (hr : w.accts[i]? = some r) (hp : pairOf w i = some (q, t)) (p : P)
    (hnone : Dict.get? (w.store p) t = none) :
    ∃ w', setContributor w i p = (w', none) ∧ (∀ k, maxInflowsOf w' i k = .error .typeError) ∧
      limitOf w' r = none ∧
      (r.acct.year ∉ Dict.keys r.inputs → ∀ v, (setRoom w' i v).2 = some .attributeError) := by
  obtain ⟨n, hl, hn, hs⟩ := setContributor_eq hr hp p
  have hlt : n < w.links.length := hw.good.bound i r n hr hl
  refine ⟨_, hs, ?_, ?_, ?_⟩
  · intro k
    unfold maxInflowsOf linkAt record
    simp only [hr, hl, Option.bind_some, List.getElem?_set_self hlt, Option.map_some, hnone]
  · unfold limitOf linkAt getData record
    simp only [hl, Option.bind_some, List.getElem?_set_self hlt, Option.map_some, hnone,
      Option.map_none, Option.join]
    rfl
  · intro hy v
    unfold setRoom linkAt setData record
    simp only [hr, hl, if_neg hy, Option.bind_some, List.getElem?_set_self hlt, Option.map_some,
      hnone]

/-- **C102**: what may be contributed to any other account (that was not given the same `AccountLink`
object) does not change. -/
theorem C102_others {w w' : World P K} (i j : ℕ) (p : P) (h : setContributor w i p = (w', none))
    (hj : (w.accts[j]?).bind Obj.link ≠ (w.accts[i]?).bind Obj.link) (k : FlowArgs K) :
    maxInflowsOf w' j k = maxInflowsOf w j k := by
  unfold setContributor at h
  cases hi : (w.accts[i]?).bind Obj.link with
  | none => rw [hi] at h; simp at h
  | some n =>
    rw [hi] at h hj
    simp only at h
    cases hn : w.links[n]? with
    | none => rw [hn] at h; simp at h
    | some pt =>
      rw [hn] at h
      simp only [Prod.mk.injEq, and_true] at h
      subst h
      unfold maxInflowsOf
      cases hr : w.accts[j]? with
      | none => rfl
      | some r =>
        rw [hr, Option.bind_some] at hj
        have : r.link.bind (linkAt { w with links := w.links.set n (p, pt.2) })
            = r.link.bind (linkAt w) := by
          cases hl : r.link with
          | none => rfl
          | some m =>
            rw [hl] at hj
            have hmn : n ≠ m := fun h => hj (by rw [h])
            unfold linkAt
            simp only [Option.bind_some, List.getElem?_set_ne hmn]
        simp only [this]
        rfl

/-- **C102**, refuted: contributions to the reassigned account do not count against the room of its new
contributor: whatever is added to it, each other account of the new contributor can take as much as
before. -/
theorem C102_not_counted {w : World P K} (hw : Made w) (i : ℕ) (r : Obj P K) (q : P) (t : String)
    (hr : w.accts[i]? = some r) (hp : pairOf w i = some (q, t)) (p : P) (hne : p ≠ q)
    (j : ℕ) (hj : pairOf w j = some (p, t)) (v : K) (when : When K) (k : FlowArgs K) :
    ∃ w', setContributor w i p = (w', none) ∧
      maxInflowsOf (addTo w' i v when).1 j k = maxInflowsOf w j k := by
  obtain ⟨n, hl, hn, hs⟩ := setContributor_eq hr hp p
  have hlt : n < w.links.length := hw.good.bound i r n hr hl
  have hji : j ≠ i := by
    rintro rfl
    rw [hp] at hj
    simp only [Option.some.injEq, Prod.mk.injEq, and_true] at hj
    exact hne hj.symm
  have hlj : (w.accts[j]?).bind Obj.link ≠ (w.accts[i]?).bind Obj.link := by
    intro h
    unfold pairOf at hj hp
    rw [h] at hj
    rw [hp] at hj
    simp only [Option.some.injEq, Prod.mk.injEq, and_true] at hj
    exact hne hj.symm
  refine ⟨_, hs, ?_⟩
  rw [← C102_others i j p hs hlj k]
  generalize hw' : ({ w with links := w.links.set n (p, t) } : World P K) = w'
  have hacc : w'.accts = w.accts := by rw [← hw']
  have hsto : w'.store = w.store := by rw [← hw']
  have hnot : i ∉ members w' p t := by
    have : members w' p t = members w p t := by unfold members; rw [hsto]
    rw [this]
    intro h
    have h := (hw.good.group p t i).mp h
    rw [hp] at h
    simp only [Option.some.injEq, Prod.mk.injEq, and_true] at h
    exact hne h.symm
  have hpj : pairOf w' j = some (p, t) := by
    obtain ⟨rj, hrj⟩ : ∃ rj, w.accts[j]? = some rj := by
      cases h : w.accts[j]? with
      | none => unfold pairOf at hj; rw [h] at hj; cases hj
      | some rj => exact ⟨rj, rfl⟩
    obtain ⟨m, hm, hm2⟩ := pair_link hrj hj
    rw [hrj, hr, Option.bind_some, Option.bind_some, hm, hl] at hlj
    have hmn : n ≠ m := fun h => hlj (by rw [h])
    unfold pairOf
    rw [hacc, hrj, Option.bind_some, hm, Option.bind_some, ← hw']
    simp only [List.getElem?_set_ne hmn, hm2]
  unfold addTo
  rw [hacc, hr]
  simp only
  cases addTransaction r.acct v when with
  | error e => rfl
  | ok a' =>
    simp only
    unfold maxInflowsOf
    simp only [← hacc, List.getElem?_set_ne (Ne.symm hji)]
    cases hrj : w'.accts[j]? with
    | none => rfl
    | some rj =>
      obtain ⟨m, hm, hm2⟩ := pair_link hrj hpj
      have hla : ∀ acc, linkAt { w' with accts := acc } m = some ⟨p, t, none⟩ := by
        intro acc; unfold linkAt; simp only [hm2, Option.map_some]
      have hlb : linkAt w' m = some ⟨p, t, none⟩ := hla w'.accts
      simp only [hm, Option.bind_some, hla, hlb]
      unfold record
      cases hrec : Dict.get? (w'.store p) t with
      | none => rfl
      | some rec =>
        simp only
        cases rec.data with
        | none => rfl
        | some lim =>
          simp only
          congr 2
          refine List.map_congr_left ?_
          intro x hx
          have hxi : x ≠ i := by
            rintro rfl
            refine hnot ?_
            unfold members
            rw [hrec]
            exact (List.mem_filter.mp hx).1
          unfold txnsOf
          simp only [List.getElem?_set_ne (Ne.symm hxi)]

/-! ### Concrete cases -/

section Examples

/-- Somebody of 40 in 2000 who earns 50000. -/
def exEnv : RrspEnv ℚ :=
  { const := { rate := 18 / 100, accrualMax := [(2000, 13500)], withholding := [],
               conversionAge := 71, withdrawalMin := [] }
    adj := fun _ _ => .ok 1
    ownerAge := fun y => .ok (y - 1960)
    contributorAge := fun y => .ok (y - 1960)
    income := fun _ => .ok 50000 }

/-- The TFSA of somebody who is 20 in 2010. -/
def exTfsa : TfsaEnv ℚ :=
  { const := { annual := [(2009, 5000), (2010, 5000)], eligibility := 18, unit := 500 }
    adj := fun _ _ => .ok 1
    ownerAge := fun y => .ok (y - 1990)
    contributorAge := fun y => .ok (y - 1990) }

/-- An RRSP opened in 2000 with what is left to choose. -/
def exRrsp (owner : Bool) (room : Option ℚ) (contributor : Option Bool) : Args Bool ℚ :=
  { className := "RRSP", kind := .rrsp exEnv none, owner := owner, balance := 1000
    growth := fun _ _ t => 1 + t / 10, nper := .none, timing := none, year := 2000, room := room
    contributor := contributor, token := none, kwLimit := none, kwLink := none, inputs := [] }

/-- A TFSA opened in 2010. -/
def exTfsaArgs (inputs : Dict ℤ ℚ) : Args Bool ℚ :=
  { exRrsp true none none with className := "TFSA", kind := .tfsa exTfsa, year := 2010, inputs := inputs }

/-- A plain account. -/
def exPlain (nper : Freq) : Args Bool ℚ :=
  { exRrsp true none none with className := "Account", kind := .plain, nper := nper }

/-- Two RRSPs to which `true` contributes, one of them owned by `false`; one of `false`'s own. -/
def exWorld : World Bool ℚ :=
  run empty [.open (exRrsp true (some 100) none), .open (exRrsp false none (some true)),
    .open (exRrsp false (some 70) none)]

theorem exWorld_made : Made exWorld :=
  ⟨_, by intro op h; simp only [List.mem_cons, List.not_mem_nil, or_false] at h
         rcases h with rfl | rfl | rfl <;> exact fun h => h, rfl⟩

example : members exWorld true "RRSP.max_inflow" = [0, 1] ∧
    members exWorld false "RRSP.max_inflow" = [2] ∧
    pairOf exWorld 1 = some (true, "RRSP.max_inflow") ∧
    shared exWorld true "RRSP.max_inflow" = some 100 ∧
    shared exWorld false "RRSP.max_inflow" = some 70 := by decide +kernel

/-- The hypotheses of `C100_opening` are met: a third account with a room of its own. -/
example : IsRegistered (exRrsp true (some 40) none) ∧
    (openAcct exWorld (exRrsp true (some 40) none)).2 = none ∧
    shared (openAcct exWorld (exRrsp true (some 40) none)).1 true "RRSP.max_inflow" = some 40 :=
  ⟨trivial, by decide +kernel, by decide +kernel⟩

/-- The first TFSA gets what has accrued since 2009. -/
example : (openAcct exWorld (exTfsaArgs [])).2 = none ∧
    shared (openAcct exWorld (exTfsaArgs [])).1 true "TFSA.max_inflow" = some 10000 := by
  decide +kernel

/-- The hypotheses of `C100_inputs_refuted` are met. -/
example : ∃ w', openAcct exWorld (exTfsaArgs [(2010, 800)]) = (w', none) ∧
    ∀ k, maxInflowsOf w' exWorld.accts.length k = .error .typeError := by
  have h : (openAcct exWorld (exTfsaArgs [(2010, 800)])).2 = none := by decide +kernel
  refine ⟨(openAcct exWorld (exTfsaArgs [(2010, 800)])).1, Prod.ext rfl h, ?_⟩
  exact (C100_inputs_refuted exWorld_made (exTfsaArgs [(2010, 800)]) trivial (Prod.ext rfl h)
    true "TFSA.max_inflow" (by decide +kernel) rfl (by decide +kernel) 800 (by decide +kernel)).2

/-- The hypotheses of `C101_retry_refuted` are met: 1000 at 10%, first with an unknown frequency. -/
example : ∃ s', accountIncome (run (empty : World Bool ℚ)
      ([] ++ [.open (exPlain (.str "montly")), .open (exPlain (.str "M"))])) true = .ok s' ∧
    100 < s' :=
  (C101_retry_refuted [] (exPlain (.str "montly")) (exPlain (.str "M")) rfl rfl rfl .valueError rfl
    (by show (0 : ℚ) < 1000 * ((1 + 1 / 10) - 1); norm_num) 100 (by decide +kernel)).2

/-- The hypotheses of `C101_late_conversion` are met: converting at 72. -/
example : (openAcct exWorld { exRrsp true (some 5) none with kind := .rrsp exEnv (some 2032) }).2
      = some .valueError ∧
    3 ∈ members (openAcct exWorld { exRrsp true (some 5) none with
      kind := .rrsp exEnv (some 2032) }).1 true "RRSP.max_inflow" ∧
    shared (openAcct exWorld { exRrsp true (some 5) none with
      kind := .rrsp exEnv (some 2032) }).1 true "RRSP.max_inflow" = some 5 := by
  decide +kernel

/-- The hypotheses of `C102_not_counted` are met by account 2, which is made `true`'s: it may take 100,
account 0 may take 100 more, though `true`'s room is 100. -/
example : ∃ w', setContributor exWorld 2 true = (w', none) ∧
    (maxInflowsOf w' 2 {}).toOption.map (fun d => d.map Prod.snd) = some [.fin 100] ∧
    (maxInflowsOf (addTo w' 2 100 (.num 0)).1 0 {}).toOption.map (fun d => d.map Prod.snd)
      = some [.fin 100] ∧
    (maxInflowsOf (addTo w' 0 100 (.num 0)).1 1 {}).toOption.map (fun d => d.map Prod.snd)
      = some [.fin 0] := by
  refine ⟨(setContributor exWorld 2 true).1, Prod.ext rfl (by decide +kernel), ?_, ?_, ?_⟩ <;>
    decide +kernel

/-- The hypotheses of `C102_unusable` are met by the TFSA of somebody who opens one. -/
example : Dict.get? ((openAcct exWorld (exTfsaArgs [])).1.store false) "TFSA.max_inflow" |>.isNone := by
  decide +kernel

end Examples

end Forecaster.Opening
