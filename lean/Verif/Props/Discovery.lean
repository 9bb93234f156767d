import Verif.Model.Discovery
import Verif.Lemmas.Dict
import Mathlib.Data.List.Dedup
import Mathlib.Data.String.Basic
import Mathlib.Tactic.Common

/-!
# C92: every recorded property of a class is found, once, with its history;
# C93: a strategy runs the method its key names
-/

namespace Forecaster.Discovery

open Forecaster

/-! ## Going through the members of a class -/

theorem mem_dirNames {A : Type} (mro : List (Dict String A)) (n : String) :
    n ∈ dirNames mro ↔ ∃ a, lookup mro n = some a := by
  unfold dirNames lookup
  rw [List.mem_insertionSort, List.mem_dedup, List.mem_flatMap, ← Option.isSome_iff_exists,
    List.findSome?_isSome_iff]
  constructor
  · rintro ⟨d, hd, hn⟩
    obtain ⟨v, hv⟩ := Dict.mem_keys_iff.1 hn
    exact ⟨d, hd, by simp [hv]⟩
  · rintro ⟨d, hd, hn⟩
    obtain ⟨v, hv⟩ := Option.isSome_iff_exists.1 hn
    exact ⟨d, hd, Dict.mem_keys_iff.2 ⟨v, hv⟩⟩

theorem mem_members {A B : Type} (f : A → Option B) (mro : List (Dict String A)) (n : String)
    (b : B) : (n, b) ∈ members f mro ↔ ∃ a, lookup mro n = some a ∧ f a = some b := by
  unfold members
  rw [List.mem_filterMap]
  constructor
  · rintro ⟨m, _, h⟩
    cases hl : lookup mro m with
    | none => rw [hl] at h; simp at h
    | some a =>
      rw [hl] at h
      simp only [Option.bind_some, Option.map_eq_some_iff] at h
      obtain ⟨b', hb, he⟩ := h
      cases he
      exact ⟨a, hl, hb⟩
  · rintro ⟨a, hl, hb⟩
    exact ⟨n, (mem_dirNames mro n).2 ⟨a, hl⟩, by simp [hl, hb]⟩

/-- A fold of assignments: a key that none of them touches keeps its value. -/
private theorem get?_foldl_other {α ν : Type} (k : α → String) (v : α → ν) (x : String) :
    ∀ (l : List α) (d : Dict String ν), (∀ a ∈ l, k a ≠ x) →
      Dict.get? (l.foldl (fun d a => Dict.set d (k a) (v a)) d) x = Dict.get? d x := by
  intro l
  induction l with
  | nil => intro d _; rfl
  | cons a l ih =>
    intro d h
    rw [List.foldl_cons, ih _ (fun b hb => h b (by simp [hb])), Dict.get?_set,
      if_neg (h a (by simp))]

/-- A fold of assignments: a key that is assigned ends up with the value assigned last. -/
private theorem get?_foldl_last {α ν : Type} (k : α → String) (v : α → ν) (x : String) :
    ∀ (l : List α) (d : Dict String ν), (∃ a ∈ l, k a = x) →
      ∃ a ∈ l, k a = x ∧
        Dict.get? (l.foldl (fun d a => Dict.set d (k a) (v a)) d) x = some (v a) := by
  intro l
  induction l with
  | nil => rintro d ⟨a, ha, _⟩; simp at ha
  | cons b l ih =>
    rintro d ⟨a, ha, hk⟩
    rw [List.foldl_cons]
    by_cases hl : ∃ a ∈ l, k a = x
    · obtain ⟨c, hc, hkc, hv⟩ := ih (Dict.set d (k b) (v b)) hl
      exact ⟨c, by simp [hc], hkc, hv⟩
    · have hb : k b = x := by
        rcases List.mem_cons.1 ha with rfl | h
        · exact hk
        · exact absurd ⟨a, h, hk⟩ hl
      refine ⟨b, by simp, hb, ?_⟩
      rw [get?_foldl_other k v x l _ (fun c hc he => hl ⟨c, hc, he⟩), Dict.get?_set, if_pos hb]

/-! ## C92 -/

/-- A recorded property `p` is what one gets for the attribute `n` of the class. -/
def Visible (mro : List (Dict String Attr)) (n : String) (p : RProp) : Prop :=
  lookup mro n = some (.recorded p)

/-- Every recorded property goes by the name it was given (the ordinary use of a decorator:
C91), and none is called `<name>_history` where another one is called `<name>`. -/
def Orderly (mro : List (Dict String Attr)) : Prop :=
  (∀ n p, Visible mro n p → p.name = n) ∧
  (∀ n p m q, Visible mro n p → Visible mro m q → q.name ≠ p.name ++ "_history")

/-- **C92.** The recorded properties of a class are exactly the recorded properties one can
see on it, whether its own or inherited; a property that the class overrides is not among
them. The cached ones are those declared as cached. Each is there once. -/
theorem C92_recorded (mro : List (Dict String Attr)) (p : RProp) :
    (p ∈ recordedProps mro ↔ ∃ n, Visible mro n p) ∧
    (p ∈ recordedCached mro ↔ (∃ n, Visible mro n p) ∧ p.cached = true) ∧
    (recordedProps mro).Nodup := by
  have h : p ∈ recordedProps mro ↔ ∃ n, Visible mro n p := by
    unfold recordedProps
    rw [List.mem_dedup, List.mem_map]
    constructor
    · rintro ⟨⟨n, q⟩, hm, rfl⟩
      obtain ⟨a, hl, ha⟩ := (mem_members _ _ _ _).1 hm
      cases a with
      | recorded r =>
        simp only [Attr.recorded?, Option.some.injEq] at ha
        subst ha
        exact ⟨n, hl⟩
      | historyOf r => simp [Attr.recorded?] at ha
      | other i => simp [Attr.recorded?] at ha
    · rintro ⟨n, hn⟩
      exact ⟨(n, p), (mem_members _ _ _ _).2 ⟨_, hn, rfl⟩, rfl⟩
  refine ⟨h, ?_, List.nodup_dedup _⟩
  unfold recordedCached
  rw [List.mem_filter, h]

private theorem append_history_inj {a b : String} (h : a ++ "_history" = b ++ "_history") :
    a = b := by
  have := congrArg String.toList h
  simp only [String.toList_append] at this
  exact String.toList_inj.1 (List.append_cancel_right this)

/-- In an orderly class a recorded property is determined by its name. -/
private theorem unique_name {mro : List (Dict String Attr)} (ho : Orderly mro) {p q : RProp}
    (hp : p ∈ recordedProps mro) (hq : q ∈ recordedProps mro) (h : p.name = q.name) : p = q := by
  obtain ⟨n, hn⟩ := (C92_recorded mro p).1.1 hp
  obtain ⟨m, hm⟩ := (C92_recorded mro q).1.1 hq
  have h1 := ho.1 n p hn
  have h2 := ho.1 m q hm
  have : n = m := by rw [← h1, ← h2, h]
  subst this
  unfold Visible at hn hm
  rw [hn] at hm
  cases hm
  rfl

private theorem mem_memberProps {mro : List (Dict String Attr)} {p : RProp} :
    p ∈ (members Attr.recorded? mro).map Prod.snd ↔ p ∈ recordedProps mro := by
  unfold recordedProps; rw [List.mem_dedup]

/-- **C92.** Creating the class adds, for each recorded property `<name>` one can see on it,
the attribute `<name>_history`, and that is the history of that very property: not of one
that the class overrides. Nothing else about the class changes. -/
theorem C92_history (body : Dict String Attr) (bases : List (Dict String Attr))
    (ho : Orderly (body :: bases)) :
    (∀ n p, Visible (body :: bases) n p →
      lookup (makeClass body bases :: bases) (n ++ "_history") = some (.historyOf p)) ∧
    (∀ n, (∀ m p, Visible (body :: bases) m p → n ≠ m ++ "_history") →
      lookup (makeClass body bases :: bases) n = lookup (body :: bases) n) := by
  have hcons : ∀ (d : Dict String Attr) n, lookup (d :: bases) n =
      match Dict.get? d n with | some a => some a | none => lookup bases n := by
    intro d n; unfold lookup; rw [List.findSome?_cons]
    cases Dict.get? d n <;> rfl
  constructor
  · intro n p hp
    have hpn := ho.1 n p hp
    have hin : p ∈ recordedProps (body :: bases) := (C92_recorded _ p).1.2 ⟨n, hp⟩
    obtain ⟨q, hq, hqn, hqv⟩ := get?_foldl_last RProp.histName Attr.historyOf (n ++ "_history")
      ((members Attr.recorded? (body :: bases)).map Prod.snd) body
      ⟨p, mem_memberProps.2 hin, by unfold RProp.histName; rw [hpn]⟩
    have hqp : q = p := by
      refine unique_name ho (mem_memberProps.1 hq) hin ?_
      unfold RProp.histName at hqn
      rw [append_history_inj hqn, hpn]
    subst hqp
    rw [hcons]
    show (match Dict.get? (makeClass body bases) (n ++ "_history") with
      | some a => some a | none => lookup bases (n ++ "_history")) = _
    rw [show Dict.get? (makeClass body bases) (n ++ "_history") = some (.historyOf q) from hqv]
  · intro n hn
    rw [hcons, hcons]
    have := get?_foldl_other RProp.histName Attr.historyOf n
      ((members Attr.recorded? (body :: bases)).map Prod.snd) body ?_
    · rw [show Dict.get? (makeClass body bases) n = Dict.get? body n from this]
    · intro p hp he
      obtain ⟨m, hm⟩ := (C92_recorded _ p).1.1 (mem_memberProps.1 hp)
      refine hn m p hm ?_
      rw [← he, ← ho.1 m p hm]; rfl

/-- **C92.** The recorded properties themselves are not disturbed by the history attributes,
so a subclass finds them in turn. -/
theorem C92_still_visible (body : Dict String Attr) (bases : List (Dict String Attr))
    (ho : Orderly (body :: bases)) (n : String) (p : RProp) :
    Visible (makeClass body bases :: bases) n p ↔ Visible (body :: bases) n p := by
  by_cases h : ∃ m q, Visible (body :: bases) m q ∧ n = m ++ "_history"
  · obtain ⟨m, q, hq, rfl⟩ := h
    constructor
    · intro hp
      have := (C92_history body bases ho).1 m q hq
      unfold Visible at hp
      rw [this] at hp
      cases hp
    · intro hp
      exact absurd ((ho.1 _ p hp).trans (by rw [ho.1 m q hq])) (ho.2 m q _ p hq hp)
  · unfold Visible
    rw [(C92_history body bases ho).2 n (fun m q hq he => h ⟨m, q, hq, he⟩)]

/-- **C92.** A new object has a record for each of its recorded properties, holding what the
user gave for that name and nothing else, and no record under any other name. -/
theorem C92_instance {V R : Type} (mro : List (Dict String Attr)) (ho : Orderly mro)
    (year : ℤ) (inputs : String → Option (ℤ → Option V)) (rest : R) (n : String) :
    ((∃ p, Visible mro n p) → ∃ d, (newObj mro year inputs rest).hist n = some d ∧
      ∀ y, d y = match inputs n with | some i => i y | none => none) ∧
    ((¬ ∃ p, Visible mro n p) → (newObj mro year inputs rest).hist n = none) := by
  have hmem : n ∈ (recordedProps mro).map RProp.name ↔ ∃ p, Visible mro n p := by
    rw [List.mem_map]
    constructor
    · rintro ⟨p, hp, rfl⟩
      obtain ⟨m, hm⟩ := (C92_recorded mro p).1.1 hp
      have := ho.1 m p hm
      subst this
      exact ⟨p, hm⟩
    · rintro ⟨p, hp⟩
      exact ⟨p, (C92_recorded mro p).1.2 ⟨n, hp⟩, ho.1 n p hp⟩
  constructor
  · intro h
    show ∃ d, instanceHist _ _ n = some d ∧ _
    unfold instanceHist
    rw [if_pos (hmem.2 h)]
    cases inputs n with
    | none => exact ⟨_, rfl, fun _ => rfl⟩
    | some i => exact ⟨_, rfl, fun _ => rfl⟩
  · intro h
    show instanceHist _ _ n = none
    unfold instanceHist
    rw [if_neg (fun hc => h (hmem.1 hc))]

/-- **C92.** So reading any recorded property of a new object, or its history, does what C91
says; the record is there. -/
theorem C92_read {V R : Type} (body : Dict String Attr) (bases : List (Dict String Attr))
    (ho : Orderly (body :: bases)) (year : ℤ) (inputs : String → Option (ℤ → Option V))
    (rest : R) (n : String) (p : RProp) (hp : Visible (body :: bases) n p) :
    ((newObj (body :: bases) year inputs rest).hist p.name).isSome := by
  rw [ho.1 n p hp]
  obtain ⟨d, hd, _⟩ := (C92_instance _ ho year inputs rest n).1 ⟨p, hp⟩
  rw [hd]; rfl

/-- **C92 (refuted for hidden properties).** A subclass that hides an inherited recorded
property behind an ordinary attribute still shows `<name>_history`, which it inherits; but its
objects have no such record, and asking for the history raises `AttributeError`. -/
theorem C92_hidden_refuted {V R : Type} (body : Dict String Attr)
    (bases : List (Dict String Attr)) (ho : Orderly (body :: bases)) (n : String) (p : RProp)
    (hh : lookup bases (n ++ "_history") = some (.historyOf p)) (hpn : p.name = n)
    (i : ℕ) (hb : Dict.get? body n = some (.other i))
    (hb' : Dict.get? body (n ++ "_history") = none)
    (year : ℤ) (inputs : String → Option (ℤ → Option V)) (rest : R)
    (fget : Decorated.Act V R V) :
    lookup (makeClass body bases :: bases) (n ++ "_history") = some (.historyOf p) ∧
    Decorated.histPlain p.name fget (newObj (body :: bases) year inputs rest) =
      (.error .attributeError, newObj (body :: bases) year inputs rest) := by
  have hnv : ¬ ∃ q, Visible (body :: bases) n q := by
    rintro ⟨q, hq⟩
    unfold Visible lookup at hq
    rw [List.findSome?_cons, hb] at hq
    simp at hq
  constructor
  · rw [(C92_history body bases ho).2 (n ++ "_history") ?_]
    · unfold lookup at hh ⊢
      rw [List.findSome?_cons, hb']
      exact hh
    · intro m q hq he
      have := append_history_inj he
      subst this
      exact hnv ⟨q, hq⟩
  · have := (C92_instance (R := R) _ ho year inputs rest n).2 hnv
    subst hpn
    unfold Decorated.histPlain Decorated.Act.bind Decorated.getHist
    rw [this]

/-! ### The classes of the library

Every ledger class of the package, in order of definition: its recorded properties and the
class it derives from (all of them derive from one class; the index is into this list,
`none` for `object`). -/

/-- (class, base, recorded properties with `true` for the cached ones):
ledger/base.py:41-183, accounts/base.py:13-836, accounts/linked_limit.py:8,
accounts/debt.py:5, canada/accounts/*.py, person.py:325-415, forecast/*.py. -/
def shippedTable : List (String × Option ℕ × List (String × Bool)) :=
  [ ("Ledger", none, []),
    ("TaxSource", some 0, [("taxable_income", false), ("tax_withheld", false),
      ("tax_credit", false), ("tax_deduction", false)]),
    ("Account", some 1, [("balance", true), ("rate", true), ("transactions", false),
      ("returns", false), ("taxable_income", false)]),
    ("Debt", some 2, []),
    ("LinkedLimitAccount", some 2, []),
    ("RegisteredAccount", some 4, [("contribution_room", false)]),
    ("RRSP", some 5, [("taxable_income", false), ("tax_withheld", false),
      ("tax_deduction", false)]),
    ("TFSA", some 5, [("taxable_income", false)]),
    ("TaxableAccount", some 2, [("acb", true), ("capital_gain", true),
      ("taxable_income", false)]),
    ("PrincipleResidence", some 2, [("taxable_income", false)]),
    ("Person", some 1, [("gross_income", true), ("net_income", true), ("raise_rate", true),
      ("tax_deduction", true), ("tax_credit", true), ("taxable_income", false),
      ("tax_withheld", false)]),
    ("SubForecast", some 0, [("transactions", false)]),
    ("IncomeForecast", some 11, [("asset_sale", false), ("carryover", false),
      ("gross_income", false), ("tax_withheld", false), ("net_income", false)]),
    ("LivingExpensesForecast", some 11, [("living_expenses", true)]),
    ("SavingForecast", some 11, [("debt_repayment", true), ("retirement_savings", true),
      ("total", true)]),
    ("WithdrawalForecast", some 11, [("gross_withdrawals", true), ("net_withdrawals", false)]),
    ("TaxForecast", some 11, [("tax_withheld", true), ("tax_owing", true),
      ("tax_adjustment", true)]),
    ("Forecast", some 0, [("income", true), ("living_expenses", true), ("savings", true),
      ("principal", true), ("withdrawals", false), ("tax", false)]) ]

/-- The class bodies: property number `j` of class number `i` is object `100 * i + j`. -/
def shippedBody (i : ℕ) : Dict String Attr :=
  match shippedTable[i]? with
  | none => []
  | some (_, _, ps) => ps.mapIdx fun j q => (q.1, .recorded ⟨100 * i + j, q.1, q.2⟩)

/-- Method resolution orders, the classes being made in the order of the table. -/
def shippedMros : List (List (Dict String Attr)) :=
  (List.range shippedTable.length).foldl (fun acc i =>
    let bases := match shippedTable[i]? with
      | some (_, some b, _) => acc.getD b []
      | _ => []
    acc ++ [makeClass (shippedBody i) bases :: bases]) []

/-- The method resolution order of a class with that name. -/
def shippedMro (c : String) : List (Dict String Attr) :=
  shippedMros.getD ((shippedTable.map (·.1)).idxOf c) []

/-- A class whose names can be checked one by one. -/
private theorem orderly_of_members (mro : List (Dict String Attr))
    (h1 : ∀ m ∈ members Attr.recorded? mro, m.2.name = m.1)
    (h2 : ∀ m ∈ members Attr.recorded? mro, ∀ k ∈ members Attr.recorded? mro,
      k.2.name ≠ m.2.name ++ "_history") : Orderly mro := by
  have hm : ∀ n p, Visible mro n p → (n, p) ∈ members Attr.recorded? mro :=
    fun n p h => (mem_members _ _ _ _).2 ⟨_, h, rfl⟩
  exact ⟨fun n p h => h1 _ (hm n p h), fun n p m q h h' => h2 _ (hm n p h) _ (hm m q h')⟩

set_option maxRecDepth 100000 in
/-- **C92.** All eighteen classes of the library are orderly, so the above holds of them. -/
theorem C92_shipped_orderly : ∀ mro ∈ shippedMros, Orderly mro := by
  have h : ∀ mro ∈ shippedMros, (∀ m ∈ members Attr.recorded? mro, m.2.name = m.1) ∧
      (∀ m ∈ members Attr.recorded? mro, ∀ k ∈ members Attr.recorded? mro,
        k.2.name ≠ m.2.name ++ "_history") := by decide +kernel
  exact fun mro hm => orderly_of_members mro (h mro hm).1 (h mro hm).2

set_option maxRecDepth 100000 in
/-- **C92.** For instance, what an RRSP records: its own `taxable_income`, `tax_withheld` and
`tax_deduction` in place of the inherited ones, and what it inherits from three classes. -/
theorem C92_rrsp_records :
    (recordedProps (shippedMro "RRSP")).map (fun p => (p.name, p.ident / 100, p.cached)) =
      [("balance", 2, true), ("contribution_room", 5, false), ("rate", 2, true),
       ("returns", 2, false), ("tax_credit", 1, false), ("tax_deduction", 6, false),
       ("tax_withheld", 6, false), ("taxable_income", 6, false), ("transactions", 2, false)] ∧
    lookup (shippedMro "RRSP") "tax_withheld_history" =
      some (.historyOf ⟨601, "tax_withheld", false⟩) ∧
    lookup (shippedMro "Account") "tax_withheld_history" =
      some (.historyOf ⟨101, "tax_withheld", false⟩) := by
  decide +kernel

/-! A class that hides `tax_credit`, and meets the hypotheses of `C92_hidden_refuted`. -/

set_option maxRecDepth 100000 in
example : let body : Dict String Attr := [("tax_credit", .other 7)]
    Orderly (body :: shippedMro "Account") ∧
    lookup (shippedMro "Account") ("tax_credit" ++ "_history") =
      some (.historyOf ⟨102, "tax_credit", false⟩) ∧
    Dict.get? body "tax_credit" = some (.other 7) ∧
    Dict.get? body ("tax_credit" ++ "_history") = none := by
  intro body
  refine ⟨orderly_of_members _ ?_ ?_, ?_, ?_, ?_⟩ <;> decide +kernel

/-! ## C93 -/

/-- `a` is what one gets for the attribute `n` of the class, and is decorated with the key
`k`. -/
def Offers (mro : List (Dict String SAttr)) (n k : String) (a : SAttr) : Prop :=
  lookup mro n = some a ∧ a.key = some k

private theorem mem_smembers (mro : List (Dict String SAttr)) (n k : String) (a : SAttr) :
    (n, (k, a)) ∈ members (fun a : SAttr => a.key.map fun k => (k, a)) mro ↔ Offers mro n k a := by
  rw [mem_members]
  unfold Offers
  constructor
  · rintro ⟨a', hl, h⟩
    obtain ⟨k', hk, he⟩ := Option.map_eq_some_iff.1 h
    cases he
    exact ⟨hl, hk⟩
  · rintro ⟨hl, hk⟩
    exact ⟨a, hl, by simp [hk]⟩

/-- **C93.** A class supports exactly the keys of the decorated methods one can see on it, and
what it runs for a key is one of the methods with that key. -/
theorem C93_keys (mro : List (Dict String SAttr)) (k : String) :
    (∀ a, Dict.get? (strategies mro) k = some a → ∃ n, Offers mro n k a) ∧
    ((∃ n a, Offers mro n k a) → ∃ a, Dict.get? (strategies mro) k = some a) := by
  have hdef : strategies mro = (members (fun a : SAttr => a.key.map fun k => (k, a)) mro).foldl
    (fun d m => Dict.set d m.2.1 m.2.2) [] := rfl
  by_cases h : ∃ n a, Offers mro n k a
  · obtain ⟨n, a, ha⟩ := h
    obtain ⟨⟨n', k', a'⟩, hm, hk, hv⟩ := get?_foldl_last
      (fun m : String × String × SAttr => m.2.1) (fun m => m.2.2) k
      (members (fun a : SAttr => a.key.map fun k => (k, a)) mro) []
      ⟨(n, k, a), (mem_smembers mro n k a).2 ha, rfl⟩
    simp only at hk hv
    subst hk
    rw [hdef]
    refine ⟨fun b hb => ?_, fun _ => ⟨a', hv⟩⟩
    rw [hv] at hb
    cases hb
    exact ⟨n', (mem_smembers mro n' k' a').1 hm⟩
  · refine ⟨fun b hb => ?_, fun h' => absurd h' h⟩
    have := get?_foldl_other (fun m : String × String × SAttr => m.2.1) (fun m => m.2.2) k
      (members (fun a : SAttr => a.key.map fun k => (k, a)) mro) [] (by
        rintro ⟨n, k', a⟩ hm rfl
        exact h ⟨n, a, (mem_smembers mro n _ a).1 hm⟩)
    rw [hdef, this] at hb
    simp [Dict.get?] at hb

/-- **C93.** If no two methods share a key, a strategy made with a key, or with the method
itself, runs that method when called. -/
theorem C93_runs (mro : List (Dict String SAttr)) (n k : String) (a : SAttr)
    (ha : Offers mro n k a)
    (hu : ∀ m b, Offers mro m k b → b = a) :
    chooseStrategy mro (.str k) = .ok k ∧ chooseStrategy mro (.method a) = .ok k ∧
    callStrategy mro k = .ok a := by
  obtain ⟨b, hb⟩ := (C93_keys mro k).2 ⟨n, a, ha⟩
  obtain ⟨m, hm⟩ := (C93_keys mro k).1 b hb
  have := hu m b hm
  subst this
  refine ⟨?_, ?_, ?_⟩
  · simp [chooseStrategy, hb]
  · simp [chooseStrategy, ha.2, hb]
  · simp [callStrategy, hb]

/-- **C93.** A strategy that could be made can be called: it never fails for want of a
method. What cannot be made is refused at once: a key that no method has with `ValueError`,
anything that is neither a string nor a decorated method with `TypeError`. -/
theorem C93_made_can_be_called (mro : List (Dict String SAttr)) (c : Choice) :
    (∀ k, chooseStrategy mro c = .ok k → ∃ n a, Offers mro n k a ∧ callStrategy mro k = .ok a) ∧
    (∀ k, c = .str k → (¬ ∃ n a, Offers mro n k a) →
      chooseStrategy mro c = .error .valueError) ∧
    (c = .junk → chooseStrategy mro c = .error .typeError) ∧
    (∀ a, c = .method a → a.key = none → chooseStrategy mro c = .error .typeError) := by
  refine ⟨?_, ?_, ?_, ?_⟩
  · intro k h
    have : ∀ x : Option String, (match x with
        | none => (.error .typeError : Except PyErr String)
        | some k => if (Dict.get? (strategies mro) k).isSome then .ok k
          else .error .valueError) = .ok k → (Dict.get? (strategies mro) k).isSome := by
      intro x hx
      cases x with
      | none => simp at hx
      | some k' =>
        simp only at hx
        by_cases hk : (Dict.get? (strategies mro) k').isSome
        · rw [if_pos hk] at hx
          cases hx
          exact hk
        · rw [if_neg hk] at hx; cases hx
    obtain ⟨a, ha⟩ := Option.isSome_iff_exists.1 (this _ h)
    obtain ⟨n, hn⟩ := (C93_keys mro k).1 a ha
    exact ⟨n, a, hn, by simp [callStrategy, ha]⟩
  · rintro k rfl hno
    have : (Dict.get? (strategies mro) k) = none := by
      cases hg : Dict.get? (strategies mro) k with
      | none => rfl
      | some a =>
        obtain ⟨n, hn⟩ := (C93_keys mro k).1 a hg
        exact absurd ⟨n, a, hn⟩ hno
    simp [chooseStrategy, this]
  · rintro rfl; rfl
  · rintro a rfl ha
    simp [chooseStrategy, ha]

/-- **C93.** A subclass that redefines a strategy method under the same name and key runs its
own version; one that redefines it without decorating it no longer supports the key (unless
another method has it). -/
theorem C93_override (body : Dict String SAttr) (bases : List (Dict String SAttr))
    (n k : String) (a b : SAttr) (hold : Offers bases n k a)
    (hnew : Dict.get? body n = some b)
    (hu : ∀ m c, m ≠ n → ¬ Offers (body :: bases) m k c) :
    (b.key = some k → callStrategy (body :: bases) k = .ok b) ∧
    (b.key = none → chooseStrategy (body :: bases) (.str k) = .error .valueError ∧
      chooseStrategy bases (.str k) = .ok k) := by
  have hl : lookup (body :: bases) n = some b := by
    unfold lookup; rw [List.findSome?_cons, hnew]
  constructor
  · intro hb
    refine (C93_runs (body :: bases) n k b ⟨hl, hb⟩ ?_).2.2
    intro m c hc
    by_cases hm : m = n
    · subst hm
      have := hc.1
      rw [hl] at this
      cases this; rfl
    · exact absurd hc (hu m c hm)
  · intro hb
    refine ⟨(C93_made_can_be_called _ _).2.1 k rfl ?_, ?_⟩
    · rintro ⟨m, c, hc⟩
      by_cases hm : m = n
      · subst hm
        have := hc.1
        rw [hl] at this
        cases this
        have h2 := hc.2
        rw [hb] at h2
        cases h2
      · exact hu m c hm hc
    · obtain ⟨c, hc⟩ := (C93_keys bases k).2 ⟨n, a, hold⟩
      simp [chooseStrategy, hc]

/-- **C93 (refuted for a key used twice).** A subclass that offers its own method under an
inherited key but under another name may not be heard: the method whose *name* comes last in
the alphabet runs, here the inherited one — even when the new method itself is what the user
passed. -/
theorem C93_same_key_refuted :
    let base : Dict String SAttr := [("strategy_ordered", ⟨1, some "Ordered"⟩)]
    let sub : Dict String SAttr := [("better_ordered", ⟨2, some "Ordered"⟩)]
    Offers [sub, base] "better_ordered" "Ordered" ⟨2, some "Ordered"⟩ ∧
    chooseStrategy [sub, base] (.method ⟨2, some "Ordered"⟩) = .ok "Ordered" ∧
    callStrategy [sub, base] "Ordered" = .ok ⟨1, some "Ordered"⟩ := by
  refine ⟨⟨?_, rfl⟩, ?_, ?_⟩ <;> decide +kernel

/-! ### The strategies of the library -/

/-- The decorated methods of each strategy class: strategy/gross_transaction.py:93-143,
strategy/allocation.py:141-166, strategy/transaction/strategy.py:86-141,
strategy/debt_payment/base.py:66-73. -/
def shippedStrategies : List (Dict String SAttr) :=
  [ [("strategy_const_contribution", ⟨0, some "Constant contribution"⟩),
     ("strategy_const_living_expenses", ⟨1, some "Constant living expenses"⟩),
     ("strategy_net_percent", ⟨2, some "Percentage of net income"⟩),
     ("strategy_gross_percent", ⟨3, some "Percentage of gross income"⟩),
     ("strategy_percent_over_base", ⟨4, some "Percentage of earnings growth"⟩),
     ("strategy_principal_percent_ret", ⟨5, some "Percentage of principal at retirement"⟩),
     ("strategy_net_percent_ret", ⟨6, some "Percentage of net income at retirement"⟩),
     ("strategy_gross_percent_ret", ⟨7, some "Percentage of gross income at retirement"⟩)],
    [("strategy_n_minus_age", ⟨8, some "n-age"⟩),
     ("strategy_transition_to_const", ⟨9, some "Transition to constant"⟩)],
    [("strategy_ordered", ⟨10, some "Ordered"⟩), ("strategy_weighted", ⟨11, some "Weighted"⟩)],
    [("strategy_snowball", ⟨12, some "Snowball"⟩),
     ("strategy_avalanche", ⟨13, some "Avalanche"⟩)] ]

set_option maxRecDepth 100000 in
/-- **C93.** In the library no two strategies of a class share a key, so each key runs its
method. -/
theorem C93_shipped : ∀ d ∈ shippedStrategies, ∀ e ∈ d, ∀ k, e.2.key = some k →
    chooseStrategy [d] (.str k) = .ok k ∧ callStrategy [d] k = .ok e.2 := by
  have h : ∀ d ∈ shippedStrategies, ∀ e ∈ d, e.2.key.isSome ∧
      chooseStrategy [d] (.str (e.2.key.getD "")) = .ok (e.2.key.getD "") ∧
      callStrategy [d] (e.2.key.getD "") = .ok e.2 := by
    decide +kernel
  intro d hd e he k hk
  have := (h d hd e he).2
  rw [hk] at this
  exact this

end Forecaster.Discovery
