import Verif.Model.Decorated
import Verif.Model.Ledger
import Verif.Lemmas.Dict
import Mathlib.Tactic.Common

/-!
# C91: a recorded property means what its declaration says

However a recorded property is put together — `@recorded_property` or
`@recorded_property_cached`, then any `@x.getter`, `@x.setter`, `@x.deleter` in any order —
the wrappers, which nest one level deeper with every decorator, do together what the
documentation of a single wrapper says.
-/

namespace Forecaster.Decorated

open Forecaster

variable {V R : Type}

/-! ## Specification -/

/-- What a declaration says: the last getter, the last setter and deleter if any. -/
structure Decl (V R : Type) where
  cached : Bool
  get : Act V R V
  set : Option (V → Act V R Unit)
  del : Option (Act V R Unit)

/-- Reading a declaration off the source text. -/
def declared : Chain V R → Decl V R
  | .base c g s d => ⟨c, g.run, s.map (·.run), d.map (·.run)⟩
  | .getter c g => { declared c with get := g.run }
  | .setter c s => { declared c with set := some s.run }
  | .deleter c d => { declared c with del := some d.run }

/-- Every function of the declaration is called `n`, as `property` requires. -/
def Named (n : String) : Chain V R → Prop
  | .base _ g s d => g.name = n ∧ (∀ f ∈ s, f.name = n) ∧ (∀ f ∈ d, f.name = n)
  | .getter c g => Named n c ∧ g.name = n
  | .setter c s => Named n c ∧ s.name = n
  | .deleter c d => Named n c ∧ d.name = n

/-- What is on record under the name `n` for the current year. -/
def onRecord (n : String) (o : Obj V R) : Option V :=
  match o.hist n with
  | some d => d o.year
  | none => none

/-- The object with `v` (or nothing) on record under `n` for the current year, and otherwise
unchanged. -/
def withRecord (n : String) (v : Option V) (o : Obj V R) : Obj V R :=
  { o with
    hist := fun m =>
      if m = n then (o.hist n).map (fun d y => if y = o.year then v else d y) else o.hist m }

/-- Reading: the value on record, or else what the getter computes; a cached property puts
that on record. -/
def specRead (n : String) (D : Decl V R) : Act V R V := fun o =>
  match onRecord n o with
  | some v => (.ok v, o)
  | none => match D.get o with
    | (.ok v, o') => (.ok v, if D.cached then withRecord n (some v) o' else o')
    | (.error e, o') => (.error e, o')

/-- Is a value given by the user for this year? -/
def Given (n : String) (o : Obj V R) : Prop := ∃ d v, o.inputs n = some d ∧ d o.year = some v

/-- Assigning: nothing if the user gave a value; else the value goes on record if there is
no setter; with one, this year's record is dropped and the setter decides. -/
noncomputable def specSet (n : String) (D : Decl V R) (v : V) : Act V R Unit := fun o =>
  open Classical in
  if Given n o then (.ok (), o)
  else match D.set with
    | none => (.ok (), withRecord n (some v) o)
    | some f => f v (withRecord n none o)

/-- Deleting: nothing if the user gave a value; else this year's record is dropped and the
deleter, if any, is called. -/
noncomputable def specDel (n : String) (D : Decl V R) : Act V R Unit := fun o =>
  open Classical in
  if Given n o then (.ok (), o)
  else match D.del with
    | none => (.ok (), withRecord n none o)
    | some f => f (withRecord n none o)

/-- `<name>_history`: the record, with the current year always in it. -/
def specHistory (n : String) (D : Decl V R) : Act V R (ℤ → Option V) := fun o =>
  match o.hist n with
  | none => (.error .attributeError, o)
  | some d => match d o.year with
    | some _ => (.ok d, o)
    | none => match D.get o with
      | (.error e, o') => (.error e, o')
      | (.ok v, o') =>
        if D.cached then
          match (withRecord n (some v) o').hist n with
          | none => (.error .attributeError, withRecord n (some v) o')
          | some d' => (.ok d', withRecord n (some v) o')
        else (.ok (fun y => if y = o'.year then some v else d y), o')

/-! ## The theorems -/

private theorem isInput_iff (n : String) (o : Obj V R) : isInput n o = true ↔ Given n o := by
  unfold isInput Given
  cases h : o.inputs n with
  | none => simp
  | some d => simp [Option.isSome_iff_exists]

private theorem withRecord_twice (n : String) (a b : Option V) (o : Obj V R) :
    withRecord n a (withRecord n b o) = withRecord n a o := by
  unfold withRecord
  congr 1
  funext m
  by_cases h : m = n
  · subst h
    cases hh : o.hist m with
    | none => simp [hh]
    | some d =>
      simp only [if_true, hh, Option.map_some]
      congr 1; funext y; by_cases hy : y = o.year <;> simp [hy]
  · simp [h]

private theorem given_withRecord (n : String) (a : Option V) (o : Obj V R) :
    Given n (withRecord n a o) ↔ Given n o := Iff.rfl

private theorem hist_withRecord (n : String) (a : Option V) (o : Obj V R) :
    ((withRecord n a o).hist n).isSome = (o.hist n).isSome := by
  unfold withRecord; cases h : o.hist n <;> simp [h]

/-- What is proved about a property object by induction over its declaration. -/
private structure Good (n : String) (D : Decl V R) (p : Prop' V R) : Prop where
  cached : p.cached = D.cached
  name : p.name = n
  gname : p.fget.name = "getter"
  sname : p.fset.name = "setter"
  dname : p.fdel.name = "deleter"
  get : ∀ o, (o.hist n).isSome → p.fget.run o = specRead n D o
  set : ∀ v o, (o.hist n).isSome → p.fset.run v o = specSet n D v o
  del : ∀ o, (o.hist n).isSome → p.fdel.run o = specDel n D o
  history : ∀ o, (o.hist n).isSome → p.history o = specHistory n D o

private theorem store_eq (n : String) (v : V) (o : Obj V R) :
    store n v o = (.ok (), withRecord n (some v) o) := rfl
private theorem erase_eq (n : String) (o : Obj V R) :
    erase n o = (.ok (), withRecord n none o) := rfl

/-- One application of either constructor to functions that, on objects with the history
attribute, do what the declaration `D` says. -/
private theorem good_init {n : String} {D : Decl V R} {g : Getter V R}
    {s : Option (Setter V R)} {d : Option (Deleter V R)}
    (hn : propName g s d = n)
    (hg : ∀ o, (o.hist n).isSome → onRecord n o = none →
      g.run o = D.get o ∨ g.run o = specRead n D o)
    (hs : ∀ v o, (o.hist n).isSome → ¬ Given n o →
      wrapSet n s v o = specSet n D v o)
    (hd : ∀ o, (o.hist n).isSome → ¬ Given n o →
      wrapDel n d o = specDel n D o) :
    Good n D (initProp D.cached g s d) := by
  have hget : ∀ o, (o.hist n).isSome → onRecord n o = none →
      (D.cached = true → cacheGet n g.run o = specRead n D o) ∧
      (D.cached = false → g.run o = specRead n D o) := by
    intro o ho hr
    obtain ⟨dd, hdd⟩ := Option.isSome_iff_exists.1 ho
    have hsp : specRead n D o = match D.get o with
      | (.ok v, o') => (.ok v, if D.cached then withRecord n (some v) o' else o')
      | (.error e, o') => (.error e, o') := by unfold specRead; rw [hr]
    refine ⟨fun hc => ?_, fun hc => ?_⟩
    · have e1 : cacheGet n g.run o = match g.run o with
        | (.ok v, o') => (.ok v, withRecord n (some v) o')
        | (.error e, o') => (.error e, o') := by
        unfold cacheGet Act.bind getHist
        simp only [hdd]
        rcases hgo : g.run o with ⟨r, o'⟩
        cases r with
        | error e => rfl
        | ok v => simp only; rw [store_eq]
      rw [e1, hsp]
      rcases hg o ho hr with h | h
      · rw [h]
        rcases D.get o with ⟨r, o'⟩
        cases r <;> simp [hc]
      · rw [h, hsp]
        rcases D.get o with ⟨r, o'⟩
        cases r with
        | error e => rfl
        | ok v => simp [hc, withRecord_twice]
    · rcases hg o ho hr with h | h
      · rw [h, hsp]
        rcases D.get o with ⟨r, o'⟩
        cases r <;> simp [hc]
      · exact h
  have hwrap : ∀ (f : Act V R V) o, (o.hist n).isSome →
      wrapGet n f o = match onRecord n o with
        | some v => (.ok v, o)
        | none => f o := by
    intro f o ho
    obtain ⟨dd, hdd⟩ := Option.isSome_iff_exists.1 ho
    unfold wrapGet Act.bind getHist onRecord
    simp only [hdd]
    cases dd o.year <;> rfl
  have hread : ∀ (f : Act V R V) o, (o.hist n).isSome →
      (onRecord n o = none → f o = specRead n D o) → wrapGet n f o = specRead n D o := by
    intro f o ho hf
    rw [hwrap f o ho]
    cases hr : onRecord n o with
    | some v => simp only; unfold specRead; rw [hr]
    | none => exact hf hr
  have hset : ∀ v o, (o.hist n).isSome → wrapSet n s v o = specSet n D v o := by
    intro v o ho
    by_cases hgv : Given n o
    · unfold wrapSet specSet
      rw [if_pos ((isInput_iff n o).2 hgv), if_pos hgv]
    · exact hs v o ho hgv
  have hdel : ∀ o, (o.hist n).isSome → wrapDel n d o = specDel n D o := by
    intro o ho
    by_cases hgv : Given n o
    · unfold wrapDel specDel
      rw [if_pos ((isInput_iff n o).2 hgv), if_pos hgv]
    · exact hd o ho hgv
  cases hc : D.cached with
  | false =>
    have : initProp false g s d = initPlain g s d := rfl
    rw [this]
    refine ⟨by simp [initPlain, hc], by simp [initPlain, hn], rfl, rfl, rfl, ?_, ?_, ?_, ?_⟩
    · intro o ho
      simp only [initPlain, hn]
      exact hread _ o ho fun hr => (hget o ho hr).2 hc
    · intro v o ho
      simp only [initPlain, hn]
      exact hset v o ho
    · intro o ho
      simp only [initPlain, hn]
      exact hdel o ho
    · intro o ho
      simp only [initPlain, hn]
      obtain ⟨dd, hdd⟩ := Option.isSome_iff_exists.1 ho
      unfold histPlain specHistory Act.bind getHist
      simp only [hdd]
      cases hy : dd o.year with
      | some v => rfl
      | none =>
        simp only
        have hr : onRecord n o = none := by unfold onRecord; rw [hdd]; exact hy
        have h := (hget o ho hr).2 hc
        rw [h]
        unfold specRead
        rw [hr]
        simp only [hc]
        rcases D.get o with ⟨r, o'⟩
        cases r <;> simp
  | true =>
    have : initProp true g s d = initCached g s d := rfl
    rw [this]
    have hn' : propName ⟨g.name, cacheGet n g.run⟩ s d = n := by
      rw [← hn]; rfl
    refine ⟨by simp [initCached, hc], ?_, rfl, rfl, rfl, ?_, ?_, ?_, ?_⟩
    · simp only [initCached, initPlain, hn, hn']
    · intro o ho
      simp only [initCached, initPlain, hn, hn']
      exact hread _ o ho fun hr => (hget o ho hr).1 hc
    · intro v o ho
      simp only [initCached, initPlain, hn, hn']
      exact hset v o ho
    · intro o ho
      simp only [initCached, initPlain, hn, hn']
      exact hdel o ho
    · intro o ho
      simp only [initCached, hn]
      obtain ⟨dd, hdd⟩ := Option.isSome_iff_exists.1 ho
      unfold histCached specHistory Act.bind getHist
      simp only [hdd]
      cases hy : dd o.year with
      | some v => rfl
      | none =>
        simp only
        have hr : onRecord n o = none := by unfold onRecord; rw [hdd]; exact hy
        simp only [hc, if_true]
        rcases hg o ho hr with h | h
        · rw [h]
          rcases D.get o with ⟨r, o'⟩
          cases r with
          | error e => rfl
          | ok v =>
            simp only [store_eq]
            cases (withRecord n (some v) o').hist n <;> rfl
        · rw [h]
          unfold specRead
          rw [hr]
          rcases D.get o with ⟨r, o'⟩
          cases r with
          | error e => rfl
          | ok v =>
            simp only [store_eq, hc, if_true, withRecord_twice]
            cases (withRecord n (some v) o').hist n <;> rfl

private theorem wrapSet_some (n : String) (f : Setter V R) (v : V) (o : Obj V R)
    (ho : (o.hist n).isSome) (hgv : ¬ Given n o) :
    wrapSet n (some f) v o = f.run v (withRecord n none o) := by
  obtain ⟨dd, hdd⟩ := Option.isSome_iff_exists.1 ho
  unfold wrapSet
  rw [if_neg (fun h => hgv ((isInput_iff n o).1 h))]
  unfold Act.bind getHist
  simp only [hdd, erase_eq]

private theorem wrapDel_some (n : String) (f : Deleter V R) (o : Obj V R)
    (ho : (o.hist n).isSome) (hgv : ¬ Given n o) :
    wrapDel n (some f) o = f.run (withRecord n none o) := by
  obtain ⟨dd, hdd⟩ := Option.isSome_iff_exists.1 ho
  unfold wrapDel
  rw [if_neg (fun h => hgv ((isInput_iff n o).1 h))]
  unfold Act.bind getHist
  simp only [hdd, erase_eq]

private theorem wrapSet_none (n : String) (v : V) (o : Obj V R)
    (ho : (o.hist n).isSome) (hgv : ¬ Given n o) :
    wrapSet n none v o = (.ok (), withRecord n (some v) o) := by
  obtain ⟨dd, hdd⟩ := Option.isSome_iff_exists.1 ho
  unfold wrapSet
  rw [if_neg (fun h => hgv ((isInput_iff n o).1 h))]
  unfold Act.bind getHist
  simp only [hdd, store_eq]

private theorem wrapDel_none (n : String) (o : Obj V R)
    (ho : (o.hist n).isSome) (hgv : ¬ Given n o) :
    wrapDel n none o = (.ok (), withRecord n none o) := by
  obtain ⟨dd, hdd⟩ := Option.isSome_iff_exists.1 ho
  unfold wrapDel
  rw [if_neg (fun h => hgv ((isInput_iff n o).1 h))]
  unfold Act.bind getHist
  simp only [hdd, erase_eq]

/-- Wrapping a setter that already does what the declaration says changes nothing. -/
private theorem rewrapSet {n : String} {D : Decl V R} {p : Prop' V R} (h : Good n D p)
    (v : V) (o : Obj V R) (ho : (o.hist n).isSome) (hgv : ¬ Given n o) :
    wrapSet n (some p.fset) v o = specSet n D v o := by
  rw [wrapSet_some n _ v o ho hgv, h.set v _ (by rw [hist_withRecord]; exact ho)]
  unfold specSet
  rw [if_neg (mt (given_withRecord n none o).1 hgv), if_neg hgv]
  cases D.set <;> simp only [withRecord_twice]

private theorem rewrapDel {n : String} {D : Decl V R} {p : Prop' V R} (h : Good n D p)
    (o : Obj V R) (ho : (o.hist n).isSome) (hgv : ¬ Given n o) :
    wrapDel n (some p.fdel) o = specDel n D o := by
  rw [wrapDel_some n _ o ho hgv, h.del _ (by rw [hist_withRecord]; exact ho)]
  unfold specDel
  rw [if_neg (mt (given_withRecord n none o).1 hgv), if_neg hgv]
  cases D.del <;> simp only [withRecord_twice]

private theorem specSet_some {n : String} {D : Decl V R} {f : V → Act V R Unit}
    (hD : D.set = some f) (v : V) (o : Obj V R) (hgv : ¬ Given n o) :
    specSet n D v o = f v (withRecord n none o) := by
  unfold specSet; rw [if_neg hgv, hD]

private theorem specDel_some {n : String} {D : Decl V R} {f : Act V R Unit}
    (hD : D.del = some f) (o : Obj V R) (hgv : ¬ Given n o) :
    specDel n D o = f (withRecord n none o) := by
  unfold specDel; rw [if_neg hgv, hD]

private theorem good_build (n : String) (h1 : n ≠ "getter") (h2 : n ≠ "setter")
    (h3 : n ≠ "deleter") : ∀ c : Chain V R, Named n c → Good n (declared c) (build c) := by
  intro c
  induction c with
  | base c g s d =>
    intro ⟨hg, hs, hd⟩
    refine good_init (D := declared (.base c g s d)) ?_ (fun o _ _ => Or.inl rfl) ?_ ?_
    · unfold propName; rw [if_pos (by rw [hg]; exact h1)]; exact hg
    · intro v o ho hgv
      cases s with
      | none => rw [wrapSet_none n v o ho hgv]; unfold specSet; rw [if_neg hgv]; rfl
      | some f => rw [wrapSet_some n f v o ho hgv, specSet_some rfl v o hgv]
    · intro o ho hgv
      cases d with
      | none => rw [wrapDel_none n o ho hgv]; unfold specDel; rw [if_neg hgv]; rfl
      | some f => rw [wrapDel_some n f o ho hgv, specDel_some rfl o hgv]
  | getter c g ih =>
    intro ⟨hc, hg⟩
    have G := ih hc
    show Good n (declared (.getter c g)) (initProp (build c).cached g _ _)
    rw [G.cached]
    refine good_init (D := declared (.getter c g)) ?_ (fun o _ _ => Or.inl rfl) ?_ ?_
    · unfold propName; rw [if_pos (by rw [hg]; exact h1)]; exact hg
    · intro v o ho hgv; exact rewrapSet G v o ho hgv
    · intro o ho hgv; exact rewrapDel G o ho hgv
  | setter c s ih =>
    intro ⟨hc, hs⟩
    have G := ih hc
    show Good n (declared (.setter c s)) (initProp (build c).cached _ (some s) _)
    rw [G.cached]
    refine good_init (D := declared (.setter c s)) ?_ ?_ ?_ ?_
    · unfold propName
      rw [if_neg (by rw [G.gname]; simp), Option.filter_some_pos (by simpa [hs] using h2)]
      exact hs
    · intro o ho _; exact Or.inr (G.get o ho)
    · intro v o ho hgv
      rw [wrapSet_some n s v o ho hgv, specSet_some rfl v o hgv]
    · intro o ho hgv; exact rewrapDel G o ho hgv
  | deleter c d ih =>
    intro ⟨hc, hd⟩
    have G := ih hc
    show Good n (declared (.deleter c d)) (initProp (build c).cached _ _ (some d))
    rw [G.cached]
    refine good_init (D := declared (.deleter c d)) ?_ ?_ ?_ ?_
    · unfold propName
      rw [if_neg (by rw [G.gname]; simp), Option.filter_some_neg (by simp [G.sname])]
      simp only
      rw [Option.filter_some_pos (by simpa [hd] using h3)]
      exact hd
    · intro o ho _; exact Or.inr (G.get o ho)
    · intro v o ho hgv; exact rewrapSet G v o ho hgv
    · intro o ho hgv
      rw [wrapDel_some n d o ho hgv, specDel_some rfl o hgv]

section
variable {n : String} (h1 : n ≠ "getter") (h2 : n ≠ "setter") (h3 : n ≠ "deleter")
  (c : Chain V R) (hc : Named n c)
include h1 h2 h3 hc

/-- **C91.** The property goes by the name its author gave it, and is cached or not as its
first decorator says. -/
theorem C91_name : (build c).name = n ∧ (build c).cached = (declared c).cached :=
  ⟨(good_build n h1 h2 h3 c hc).name, (good_build n h1 h2 h3 c hc).cached⟩

/-- **C91.** Reading. -/
theorem C91_read (o : Obj V R) (ho : (o.hist n).isSome) :
    (build c).fget.run o = specRead n (declared c) o :=
  (good_build n h1 h2 h3 c hc).get o ho

/-- **C91.** Assigning. -/
theorem C91_set (v : V) (o : Obj V R) (ho : (o.hist n).isSome) :
    (build c).fset.run v o = specSet n (declared c) v o :=
  (good_build n h1 h2 h3 c hc).set v o ho

/-- **C91.** Deleting (and so `clear_cache`, which deletes every cached property). -/
theorem C91_delete (o : Obj V R) (ho : (o.hist n).isSome) :
    (build c).fdel.run o = specDel n (declared c) o :=
  (good_build n h1 h2 h3 c hc).del o ho

/-- **C91.** The history. -/
theorem C91_history (o : Obj V R) (ho : (o.hist n).isSome) :
    (build c).history o = specHistory n (declared c) o :=
  (good_build n h1 h2 h3 c hc).history o ho

/-- **C91.** The order of the decorators is immaterial: two declarations that name the same
last getter, setter and deleter make properties that cannot be told apart. -/
theorem C91_order (c' : Chain V R) (hc' : Named n c') (he : declared c = declared c')
    (o : Obj V R) (ho : (o.hist n).isSome) :
    (build c).fget.run o = (build c').fget.run o ∧
    (∀ v, (build c).fset.run v o = (build c').fset.run v o) ∧
    (build c).fdel.run o = (build c').fdel.run o ∧
    (build c).history o = (build c').history o := by
  have A := good_build n h1 h2 h3 c hc
  have B := good_build n h1 h2 h3 c' hc'
  rw [← he] at B
  exact ⟨(A.get o ho).trans (B.get o ho).symm, fun v => (A.set v o ho).trans (B.set v o ho).symm,
    (A.del o ho).trans (B.del o ho).symm, (A.history o ho).trans (B.history o ho).symm⟩

end

/-! ### The ledger model starts from the right place

`Model/Ledger.lean` (C12–C15) describes a class by its getters, setters and deleters and
gives the four operations directly. Those operations are what the nested wrappers do. -/

/-- A ledger state seen as an object. -/
def ofLedger {σ : Type} (s : Ledger.St String V σ) : Obj V σ where
  year := s.year
  inputs := fun p => (s.inputs p).map fun d y => Dict.get? d y
  hist := fun p => some fun y => Dict.get? (s.hist p) y
  rest := s.world

/-- A declaration seen as one entry of a ledger class: its functions work on the rest of the
object only. -/
def OfClass {σ : Type} (k : Ledger.Cls String V σ) (n : String) (D : Decl V σ) : Prop :=
  D.cached = k.cached n ∧
  (D.get = fun o => (.ok (k.fget n o.year o.rest).1,
    { o with rest := (k.fget n o.year o.rest).2 })) ∧
  (D.set = (k.fset n).map fun f v o => (.ok (), { o with rest := f v o.rest })) ∧
  (D.del = (k.fdel n).map fun f o => (.ok (), { o with rest := f o.rest }))

private theorem given_ofLedger {σ : Type} (s : Ledger.St String V σ) (n : String) :
    Given n (ofLedger s) ↔ s.isInput n = true := by
  unfold Given ofLedger Ledger.St.isInput
  cases h : s.inputs n with
  | none => simp [h]
  | some d => simp [h, Option.isSome_iff_exists]

private theorem record_ofLedger {σ : Type} (s : Ledger.St String V σ) (n : String) (v : V) :
    withRecord n (some v) (ofLedger s) = ofLedger (s.record n v) := by
  unfold withRecord ofLedger Ledger.St.record
  congr 1
  funext m
  by_cases h : m = n
  · subst h
    simp only [if_true, Option.map_some]
    congr 1; funext y
    rw [Dict.get?_set]
    by_cases hy : y = s.year
    · subst hy; simp
    · rw [if_neg hy, if_neg (fun h => hy h.symm)]
  · simp [h]

private theorem drop_ofLedger {σ : Type} (s : Ledger.St String V σ) (n : String)
    (hw : Dict.WF (s.hist n)) :
    withRecord n none (ofLedger s) = ofLedger (s.drop n) := by
  unfold withRecord ofLedger Ledger.St.drop
  congr 1
  funext m
  by_cases h : m = n
  · subst h
    simp only [if_true, Option.map_some]
    congr 1; funext y
    rw [Dict.get?_del hw]
    by_cases hy : y = s.year
    · subst hy; simp
    · rw [if_neg hy, if_neg (fun h => hy h.symm)]
  · simp [h]

/-- **C91.** For getters, setters and deleters that work on the rest of the object, the four
operations on a property declared by any chain of decorators are the four operations of the
ledger model. -/
theorem C91_ledger_model {σ : Type} {n : String} (h1 : n ≠ "getter") (h2 : n ≠ "setter")
    (h3 : n ≠ "deleter") (c : Chain V σ) (hc : Named n c) (k : Ledger.Cls String V σ)
    (hk : OfClass k n (declared c)) (s : Ledger.St String V σ) (hw : Dict.WF (s.hist n)) :
    (build c).fget.run (ofLedger s) =
      (.ok (Ledger.read k s n).1, ofLedger (Ledger.read k s n).2) ∧
    (∀ v, (build c).fset.run v (ofLedger s) = (.ok (), ofLedger (Ledger.set k s n v))) ∧
    (build c).fdel.run (ofLedger s) = (.ok (), ofLedger (Ledger.delete k s n)) ∧
    (build c).history (ofLedger s) =
      (.ok (fun y => Dict.get? (Ledger.history k s n).1 y), ofLedger (Ledger.history k s n).2) := by
  obtain ⟨k1, k2, k3, k4⟩ := hk
  have ho : ((ofLedger s).hist n).isSome := rfl
  rw [C91_read h1 h2 h3 c hc _ ho, C91_delete h1 h2 h3 c hc _ ho, C91_history h1 h2 h3 c hc _ ho]
  have hrec : onRecord n (ofLedger s) = Dict.get? (s.hist n) s.year := rfl
  refine ⟨?_, ?_, ?_, ?_⟩
  · unfold specRead Ledger.read
    rw [hrec]
    cases Dict.get? (s.hist n) s.year with
    | some v => rfl
    | none =>
      simp only [k2, k1]
      by_cases hcc : k.cached n = true
      · simp only [hcc, if_true]
        rw [← record_ofLedger]
        rfl
      · simp only [hcc]
        rfl
  · intro v
    rw [C91_set h1 h2 h3 c hc v _ ho]
    unfold specSet Ledger.set
    by_cases hgv : Given n (ofLedger s)
    · rw [if_pos hgv, if_pos ((given_ofLedger s n).1 hgv)]
    · rw [if_neg hgv, if_neg (fun h => hgv ((given_ofLedger s n).2 h)), k3]
      cases k.fset n with
      | none => simp only [Option.map_none]; rw [record_ofLedger]
      | some f => simp only [Option.map_some]; rw [drop_ofLedger s n hw]; rfl
  · unfold specDel Ledger.delete
    by_cases hgv : Given n (ofLedger s)
    · rw [if_pos hgv, if_pos ((given_ofLedger s n).1 hgv)]
    · rw [if_neg hgv, if_neg (fun h => hgv ((given_ofLedger s n).2 h)), k4]
      cases k.fdel n with
      | none => simp only [Option.map_none]; rw [drop_ofLedger s n hw]
      | some f => simp only [Option.map_some]; rw [drop_ofLedger s n hw]; rfl
  · unfold specHistory Ledger.history
    have hh : (ofLedger s).hist n = some fun y => Dict.get? (s.hist n) y := rfl
    have hy : (ofLedger s).year = s.year := rfl
    simp only [hh, hy]
    cases Dict.get? (s.hist n) s.year with
    | some v => rfl
    | none =>
      simp only [k2, k1]
      by_cases hcc : k.cached n = true
      · simp only [hcc, if_true]
        rw [show ({ ofLedger s with rest := (k.fget n (ofLedger s).year (ofLedger s).rest).2 } :
            Obj V σ) = ofLedger { s with world := (k.fget n s.year s.world).2 } from rfl,
          record_ofLedger]
        rfl
      · simp only [hcc]
        have e : (fun y => if y = s.year then some (k.fget n s.year s.world).1
            else Dict.get? (s.hist n) y) =
            fun y => Dict.get? (Dict.set (s.hist n) s.year (k.fget n s.year s.world).1) y := by
          funext y
          rw [Dict.get?_set]
          by_cases hy : y = s.year
          · subst hy; simp
          · rw [if_neg hy, if_neg (fun h => hy h.symm)]
        exact congrArg (fun f => ((Except.ok f : Except PyErr (ℤ → Option V)),
          ofLedger { s with world := (k.fget n s.year s.world).2 })) e

/-! ### Where the naming rule fails -/

/-- A property that reads and writes the rest of the object. -/
def plainGet (n : String) : Getter ℤ ℤ := ⟨n, fun o => (.ok o.rest, o)⟩
/-- Its setter. -/
def plainSet (n : String) : Setter ℤ ℤ := ⟨n, fun v o => (.ok (), { o with rest := v })⟩

/-- **C91 (refuted for three names).** A property whose author calls it `setter` loses its
name as soon as it has a setter: it is recorded as `getter`, so that values given by the user
in `inputs["setter"]` are overwritten, and its history is `getter_history`. -/
theorem C91_reserved_name_refuted :
    let c : Chain ℤ ℤ := .setter (.base false (plainGet "setter") none none) (plainSet "setter")
    Named "setter" c ∧ (build c).name = "getter" ∧
    ∃ o : Obj ℤ ℤ, Given "setter" o ∧ (o.hist "setter").isSome ∧ (o.hist "getter").isSome ∧
      ((build c).fset.run 5 o).2.rest = 5 ∧ o.rest = 1 := by
  refine ⟨⟨⟨rfl, by simp, by simp⟩, rfl⟩, by decide, ?_⟩
  exact ⟨⟨2000, fun m => if m = "setter" then some fun _ => some 7 else none,
    fun _ => some fun _ => none, 1⟩, ⟨_, 7, rfl, rfl⟩, rfl, rfl, by decide, rfl⟩

/-- **C91.** `@x.setter` over a function with another name makes a second property under that
name, with a record of its own: reading it consults the record of the second name first and
the first property's after that; assigning to it leaves the first one's record alone. -/
theorem C91_renamed_setter (x y : String) (hxy : x ≠ y) (hx : x ≠ "getter")
    (hy : y ≠ "setter") (g : Getter V R) (hg : g.name = x) (s : Setter V R) (hs : s.name = y)
    (o : Obj V R) (ho : (o.hist x).isSome) (ho' : (o.hist y).isSome) :
    let p := build (.setter (.base false g none none) s)
    p.name = y ∧
    (∀ v, onRecord y o = some v → p.fget.run o = (.ok v, o)) ∧
    (∀ v, onRecord y o = none → onRecord x o = some v → p.fget.run o = (.ok v, o)) ∧
    (onRecord y o = none → onRecord x o = none → p.fget.run o = g.run o) ∧
    (¬ Given y o → ∀ v, p.fset.run v o = s.run v (withRecord y none o)) ∧
    onRecord x (withRecord y none o) = onRecord x o := by
  intro p
  obtain ⟨dx, hdx⟩ := Option.isSome_iff_exists.1 ho
  obtain ⟨dy, hdy⟩ := Option.isSome_iff_exists.1 ho'
  have hn0 : propName g none (none : Option (Deleter V R)) = x := by
    unfold propName; rw [if_pos (by rw [hg]; exact hx)]; exact hg
  have hn : ∀ d, propName (⟨"getter", wrapGet x g.run⟩ : Getter V R) (some s) d = y := by
    intro d
    unfold propName
    rw [if_neg (by simp), Option.filter_some_pos (by simpa [hs] using hy)]
    exact hs
  have hp : p = initPlain ⟨"getter", wrapGet x g.run⟩ (some s)
      (some ⟨"deleter", wrapDel x none⟩) := by
    show initPlain (build (.base false g none none)).fget (some s)
      (some (build (.base false g none none)).fdel) = _
    show initPlain (initPlain g none none).fget (some s) (some (initPlain g none none).fdel) = _
    simp only [initPlain, hn0]
  have hget : ∀ o', p.fget.run o' = wrapGet y (wrapGet x g.run) o' := by
    intro o'; rw [hp]; simp only [initPlain, hn]
  refine ⟨by rw [hp]; simp only [initPlain, hn], ?_, ?_, ?_, ?_, ?_⟩
  · intro v hv
    rw [hget]
    unfold onRecord at hv
    unfold wrapGet Act.bind getHist
    simp only [hdy] at hv ⊢
    simp only [hv]
  · intro v hv hv'
    rw [hget]
    unfold onRecord at hv hv'
    unfold wrapGet Act.bind getHist
    simp only [hdy, hdx] at hv hv' ⊢
    simp only [hv, hv']
  · intro hv hv'
    rw [hget]
    unfold onRecord at hv hv'
    unfold wrapGet Act.bind getHist
    simp only [hdy, hdx] at hv hv' ⊢
    simp only [hv, hv']
  · intro hgv v
    rw [hp]
    simp only [initPlain, hn]
    exact wrapSet_some y s v o ho' hgv
  · unfold onRecord withRecord
    simp only [if_neg hxy]

/-! ### A concrete case

`contribution_room` of a registered account has a getter and a setter
(registered_account.py:118-131); here with a deleter as well, cached. -/

/-- A cached property `room` with getter, deleter and setter. -/
def exChain : Chain ℤ ℤ :=
  .setter (.deleter (.base true (plainGet "room") none none)
    ⟨"room", fun o => (.ok (), { o with rest := 0 })⟩) (plainSet "room")

/-- An object with nothing on record. -/
def exObj : Obj ℤ ℤ := ⟨2000, fun _ => none, fun m => if m = "room" then some fun _ => none
  else none, 3⟩

example : Named "room" exChain := ⟨⟨⟨rfl, by simp, by simp⟩, rfl⟩, rfl⟩

example : (build exChain).name = "room" ∧ ((build exChain).fget.run exObj).1 = .ok 3 ∧
    onRecord "room" ((build exChain).fget.run exObj).2 = some 3 ∧
    ((build exChain).fset.run 8 ((build exChain).fget.run exObj).2).2.rest = 8 ∧
    onRecord "room" ((build exChain).fset.run 8 ((build exChain).fget.run exObj).2).2 = none ∧
    ((build exChain).fdel.run ((build exChain).fget.run exObj).2).2.rest = 0 := by
  decide +kernel

end Forecaster.Decorated
