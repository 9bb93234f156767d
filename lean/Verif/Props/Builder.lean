import Verif.Model.Builder
import Verif.Lemmas.Dict

/-!
# C48, C74: how a `Forecaster` fills in parameters
-/

set_option linter.unusedSectionVars false

namespace Forecaster.Builder

open Forecaster

/-! ### Specification -/

/-- The value that the name `n` stands for in a state: what the user has assigned, or else the
one object made for this request. -/
inductive InForce (s : St) (n : String) : Val → Prop
  | explicit (v : Val) : Dict.get? s.fc.attrs n = some v → v ≠ .none → InForce s n v
  | built (v : Val) : Dict.get? s.fc.attrs n = some .none → n ∈ Dict.keys s.fc.defaults →
      Dict.get? s.memo n = some v → InForce s n v
  | absent : Dict.get? s.fc.attrs n = some .none → n ∉ Dict.keys s.fc.defaults → InForce s n .none

/-- Specification: of the classes that forecasts are made of all but `Scenario` take
`high_precision`. -/
def takesPrecision (t : Ty) : Prop := t ≠ .scenario ∧ ∀ n, t ≠ .other n false

theorem takes_iff (t : Ty) : t.highPrecision = true ↔ takesPrecision t := by
  unfold takesPrecision
  cases t <;> simp [Ty.highPrecision]

instance (t : Ty) : Decidable (takesPrecision t) := decidable_of_iff _ (takes_iff t)

/-- As `ObjFrom` below, in terms of a state. -/
structure BuiltFrom (E : Env) (s : St) (n : String) (args : List Val) (ty : Option Ty)
    (kwargs : Dict String Val) (o : Obj) : Prop where
  ty : some o.ty = (ty <|> Dict.get? s.fc.types n)
  args : o.args = args
  explicit : ∀ k v, Dict.get? kwargs k = some v → Dict.get? o.kwargs k = some v
  default : ∀ ds k top path, Dict.get? s.fc.defaults n = some ds →
    Dict.get? ds k = some (top, path) → Dict.get? kwargs k = none →
    ∃ t v, InForce s top t ∧ follow E t path = .ok v ∧ Dict.get? o.kwargs k = some v
  other : ∀ k, Dict.get? kwargs k = none →
    (∀ ds, Dict.get? s.fc.defaults n = some ds → Dict.get? ds k = none) →
    Dict.get? o.kwargs k =
      if k = "high_precision" ∧ takesPrecision o.ty then some s.fc.highPrecision else none

/-- Specification: the tables of defaults are not circular, and every parameter with a class has
defaults. -/
structure Tables (fc : Fc) (rank : String → ℕ) : Prop where
  known : ∀ n ∈ Dict.keys fc.types, n ∈ Dict.keys fc.defaults
  rank : ∀ n ds, Dict.get? fc.defaults n = some ds → ∀ e ∈ ds, e.2.1 ∈ Dict.keys fc.defaults →
    rank e.2.1 < rank n

/-- Specification: requests that share a memo, one after the other. -/
def requests (E : Env) (fuel : ℕ) : List String → M (List Val)
  | [] => pure []
  | n :: ns => do
    let v ← getParam E fuel n
    let vs ← requests E fuel ns
    pure (v :: vs)

/-- Nothing that existed has changed: neither the forecaster nor any object. -/
def Keeps (s s' : St) : Prop := s'.fc = s.fc ∧ s.heap <+: s'.heap

/-- Specification: `world` says what every name stands for; what the user has assigned stands. -/
def Sources (fc : Fc) (world : String → Val) : Prop :=
  ∀ n v, Dict.get? fc.attrs n = some v → v ≠ .none → world n = v

/-- Specification: the object `o` has been built for the parameter `n` with the explicit arguments
`args` and `kwargs` (and class `ty`): everything not given explicitly is an attribute of what the
name in the table of defaults stands for, and `high_precision` is passed on to classes that take
it. -/
structure ObjFrom (E : Env) (fc : Fc) (world : String → Val) (n : String) (args : List Val)
    (ty : Option Ty) (kwargs : Dict String Val) (o : Obj) : Prop where
  ty : some o.ty = (ty <|> Dict.get? fc.types n)
  args : o.args = args
  explicit : ∀ k v, Dict.get? kwargs k = some v → Dict.get? o.kwargs k = some v
  default : ∀ ds k top path, Dict.get? fc.defaults n = some ds →
    Dict.get? ds k = some (top, path) → Dict.get? kwargs k = none →
    ∃ v, follow E (world top) path = .ok v ∧ Dict.get? o.kwargs k = some v
  other : ∀ k, Dict.get? kwargs k = none →
    (∀ ds, Dict.get? fc.defaults n = some ds → Dict.get? ds k = none) →
    Dict.get? o.kwargs k =
      if k = "high_precision" ∧ takesPrecision o.ty then some fc.highPrecision else none

/-- Specification: the objects in `heap` from number `b` on are those built for the names without an
assigned value, one for each name; and `world` says which. -/
structure Described (E : Env) (fc : Fc) (world : String → Val) (b : ℕ) (heap : List Obj) : Prop where
  sources : Sources fc world
  named : ∀ i, b ≤ i → i < heap.length →
    ∃! n, world n = .obj i ∧ Dict.get? fc.attrs n = some .none
  object : ∀ n i, world n = .obj i → Dict.get? fc.attrs n = some .none →
    b ≤ i ∧ ∃ o, heap[i]? = some o ∧ ObjFrom E fc world n [] none [] o

/-! ### Programs -/

theorem bind_apply {α β : Type} (m : M α) (f : α → M β) (s : St) :
    (m >>= f) s = match m s with
      | (.ok a, s') => f a s'
      | (.error e, s') => (.error e, s') := rfl

theorem pure_apply {α : Type} (a : α) (s : St) : (pure a : M α) s = (.ok a, s) := rfl

theorem bind_ok {α β : Type} {m : M α} {f : α → M β} {s s' : St} {b : β}
    (h : (m >>= f) s = (.ok b, s')) : ∃ a s₁, m s = (.ok a, s₁) ∧ f a s₁ = (.ok b, s') := by
  rw [bind_apply] at h
  generalize hm : m s = r at h
  obtain ⟨x, s₁⟩ := r
  cases x with
  | ok a => exact ⟨a, s₁, rfl, h⟩
  | error e => simp at h

theorem Keeps.refl (s : St) : Keeps s s := ⟨rfl, List.prefix_refl _⟩

theorem Keeps.trans {s t u : St} (h : Keeps s t) (h' : Keeps t u) : Keeps s u :=
  ⟨h'.1.trans h.1, h.2.trans h'.2⟩

/-- A program that keeps everything, whether it raises or not. -/
def Safe {α : Type} (m : M α) : Prop := ∀ s, Keeps s (m s).2

theorem Safe.pure {α : Type} (a : α) : Safe (pure a : M α) := fun s => Keeps.refl s

theorem Safe.bind {α β : Type} {m : M α} {f : α → M β} (h : Safe m) (h' : ∀ a, Safe (f a)) :
    Safe (m >>= f) := by
  intro s
  rw [bind_apply]
  have h1 := h s
  generalize m s = r at h1 ⊢
  obtain ⟨x, s₁⟩ := r
  cases x with
  | ok a => exact h1.trans (h' a s₁)
  | error e => exact h1

theorem Safe.lift {α : Type} (x : Except PyErr α) : Safe (lift x) := fun s => Keeps.refl s

theorem safe_selfAttr (n : String) : Safe (selfAttr n) := by
  intro s
  unfold selfAttr
  split <;> exact Keeps.refl s

theorem safe_orBuild {build : String → M Val} (h : ∀ n, Safe (build n)) (n : String) (v : Val) :
    Safe (orBuild build n v) := by
  intro s
  unfold orBuild
  split_ifs
  · exact h n s
  · exact Keeps.refl s

theorem safe_getAttrRec {E : Env} {build : String → M Val} (h : ∀ n, Safe (build n))
    (n : String × List String) : Safe (getAttrRec E build n) :=
  (safe_selfAttr _).bind fun _ => (safe_orBuild h _ _).bind fun _ => Safe.lift _

theorem safe_readDefaults {E : Env} {build : String → M Val} (h : ∀ n, Safe (build n))
    (ds : Dict String (String × List String)) : Safe (readDefaults E build ds) := by
  induction ds with
  | nil => exact Safe.pure _
  | cons e ds ih =>
    obtain ⟨k, v⟩ := e
    exact (safe_getAttrRec h v).bind fun _ => ih.bind fun _ => Safe.pure _

theorem safe_fillIn {E : Env} {build : String → M Val} (h : ∀ n, Safe (build n)) (n : String)
    (kwargs : Dict String Val) : Safe (fillIn E build n kwargs) := by
  intro s
  unfold fillIn
  split
  · exact Keeps.refl s
  · exact ((safe_readDefaults h _).bind fun _ => Safe.pure _) s

theorem safe_typeOf (n : String) (ty : Option Ty) : Safe (typeOf n ty) := by
  intro s
  unfold typeOf
  split
  · exact Keeps.refl s
  · split <;> exact Keeps.refl s

theorem safe_construct (E : Env) (ty : Ty) (args : List Val) (kwargs : Dict String Val) :
    Safe (construct E ty args kwargs) := by
  intro s
  unfold construct
  split_ifs
  · exact Keeps.refl s
  · split
    · exact Keeps.refl s
    · exact ⟨rfl, List.prefix_append _ _⟩

theorem buildParam_succ (E : Env) (fuel : ℕ) (name : String) (args : List Val) (ty : Option Ty)
    (kwargs : Dict String Val) (s : St) : buildParam E (fuel + 1) name args ty kwargs s =
    match Dict.get? s.memo name with
    | some v => (.ok v, s)
    | none => (do
        let kwargs ← fillIn E (fun n => buildParam E fuel n [] none []) name kwargs
        let t ← typeOf name ty
        let kwargs ← withPrecision t kwargs
        let param ← construct E t args kwargs
        remember name param
        pure param : M Val) s := rfl

theorem safe_buildParam (E : Env) (fuel : ℕ) (name : String) (args : List Val) (ty : Option Ty)
    (kwargs : Dict String Val) : Safe (buildParam E fuel name args ty kwargs) := by
  induction fuel generalizing name args ty kwargs with
  | zero => exact fun s => Keeps.refl s
  | succ fuel ih =>
    intro s
    rw [buildParam_succ]
    split
    · exact Keeps.refl s
    · refine ((safe_fillIn (fun n => ih n [] none []) name kwargs).bind fun k =>
        (safe_typeOf name ty).bind fun t => ?_) s
      refine Safe.bind (fun s => Keeps.refl s) fun k => ?_
      refine (safe_construct E t args k).bind fun p => ?_
      exact Safe.bind (fun s => Keeps.refl s) fun _ => Safe.pure _

theorem safe_getParam (E : Env) (fuel : ℕ) (name : String) : Safe (getParam E fuel name) := by
  refine (safe_selfAttr name).bind fun v => ?_
  have h : ∀ v, Safe (converted E v) := fun v s => Keeps.refl s
  refine Safe.bind (fun s => ?_) h
  unfold orDefault
  split_ifs
  · exact safe_buildParam E fuel name [] none [] s
  · exact Keeps.refl s

theorem Safe.ownMemo {α : Type} {m : M α} (h : Safe m) : Safe (ownMemo m) := fun s =>
  h { s with memo := [] }

theorem safe_run (E : Env) (fuel : ℕ) (people accounts debts : Val) :
    Safe (run E fuel people accounts debts) := by
  refine Safe.ownMemo ?_
  refine (safe_getParam E fuel _).bind fun _ => (Safe.lift _).bind fun _ => ?_
  refine (safe_getParam E fuel _).bind fun _ => (safe_getParam E fuel _).bind fun _ => ?_
  refine (safe_getParam E fuel _).bind fun _ => (safe_getParam E fuel _).bind fun _ => ?_
  exact fun s => Keeps.refl s

/-! ### What has been built -/

/-- Objects built so far, as entries of the memo. -/
structure Inv (E : Env) (b : ℕ) (s : St) : Prop where
  heap : b ≤ s.heap.length
  objs : ∀ i, b ≤ i → i < s.heap.length → ∃ n, Dict.get? s.memo n = some (.obj i)
  memo : ∀ n v, Dict.get? s.memo n = some v → n ∈ Dict.keys s.fc.defaults ∧
    Dict.get? s.fc.attrs n = some .none ∧ ∃ i o, v = .obj i ∧ b ≤ i ∧ s.heap[i]? = some o ∧
      BuiltFrom E s n [] none [] o
  inj : ∀ n m v, Dict.get? s.memo n = some v → Dict.get? s.memo m = some v → n = m

/-- A later state. -/
structure Grows (s s' : St) : Prop where
  keeps : Keeps s s'
  memo : ∀ n u, Dict.get? s.memo n = some u → Dict.get? s'.memo n = some u

theorem Grows.refl (s : St) : Grows s s := ⟨Keeps.refl s, fun _ _ h => h⟩

theorem Grows.trans {s t u : St} (h : Grows s t) (h' : Grows t u) : Grows s u :=
  ⟨h.keeps.trans h'.keeps, fun n x hx => h'.memo n x (h.memo n x hx)⟩

theorem InForce.mono {s s' : St} (h : Grows s s') {n : String} {v : Val} (hv : InForce s n v) :
    InForce s' n v := by
  cases hv with
  | explicit _ h1 h2 => exact .explicit v (by rw [h.keeps.1]; exact h1) h2
  | built _ h1 h2 h3 =>
    exact .built v (by rw [h.keeps.1]; exact h1) (by rw [h.keeps.1]; exact h2) (h.memo n v h3)
  | absent h1 h2 => exact .absent (by rw [h.keeps.1]; exact h1) (by rw [h.keeps.1]; exact h2)

theorem InForce.unique {s : St} {n : String} {v w : Val} (hv : InForce s n v) (hw : InForce s n w) :
    v = w := by
  cases hv <;> cases hw <;> simp_all

theorem BuiltFrom.mono {E : Env} {s s' : St} (h : Grows s s') {n : String} {args : List Val}
    {ty : Option Ty} {kwargs : Dict String Val} {o : Obj} (hb : BuiltFrom E s n args ty kwargs o) :
    BuiltFrom E s' n args ty kwargs o := by
  refine ⟨?_, hb.args, hb.explicit, ?_, ?_⟩
  · rw [h.keeps.1]; exact hb.ty
  · intro ds k top path h1 h2 h3
    rw [h.keeps.1] at h1
    obtain ⟨t, v, h4, h5, h6⟩ := hb.default ds k top path h1 h2 h3
    exact ⟨t, v, h4.mono h, h5, h6⟩
  · intro k h1 h2
    rw [h.keeps.1] at h2 ⊢
    exact hb.other k h1 h2

theorem grows_put {s : St} {name : String} {o : Obj} (hn : Dict.get? s.memo name = none) :
    Grows s { s with
      heap := s.heap ++ [o], memo := Dict.set s.memo name (.obj s.heap.length) } := by
  refine ⟨⟨rfl, List.prefix_append _ _⟩, fun m u hu => ?_⟩
  rw [Dict.get?_set]
  split_ifs with hmn'
  · subst hmn'; rw [hn] at hu; cases hu
  · exact hu

theorem Inv.put {E : Env} {b : ℕ} {s : St} {name : String} {o : Obj} (hi : Inv E b s)
    (hn : Dict.get? s.memo name = none) (hk : name ∈ Dict.keys s.fc.defaults)
    (ha : Dict.get? s.fc.attrs name = some .none) (hb : BuiltFrom E s name [] none [] o) :
    Inv E b { s with
      heap := s.heap ++ [o], memo := Dict.set s.memo name (.obj s.heap.length) } := by
  have hgr := grows_put (o := o) hn
  have hlt : ∀ n v, Dict.get? s.memo n = some v → v ≠ .obj s.heap.length := by
    rintro n v hv rfl
    obtain ⟨-, -, i, o', h1, -, h2, -⟩ := hi.memo n _ hv
    cases h1
    rw [List.getElem?_eq_none (le_refl _)] at h2
    cases h2
  refine ⟨hi.heap.trans (by simp), ?_, ?_, ?_⟩
  · intro i hbi hi'
    rcases lt_or_ge i s.heap.length with hlt' | hge
    · obtain ⟨n, h1⟩ := hi.objs i hbi hlt'
      exact ⟨n, hgr.memo n _ h1⟩
    · have hii : i = s.heap.length := by simp at hi'; omega
      subst hii
      exact ⟨name, by simp only; rw [Dict.get?_set]; simp⟩
  · intro m u hu
    have hu' := hu
    simp only at hu
    rw [Dict.get?_set] at hu
    split_ifs at hu with hmn'
    · subst hmn'
      cases hu
      exact ⟨hk, ha, _, o, rfl, hi.heap, by simp, hb.mono hgr⟩
    · obtain ⟨m0, m1, i, o', m2, m3, m4, m5⟩ := hi.memo m u hu
      refine ⟨m0, m1, i, o', m2, m3, ?_, m5.mono hgr⟩
      simp only
      rw [List.getElem?_append_left]
      · exact m4
      · exact (List.getElem?_eq_some_iff.1 m4).1
  · intro n m v h1 h2
    simp only at h1 h2
    rw [Dict.get?_set] at h1 h2
    split_ifs at h1 h2 with e1 e2 e2
    · exact e1.symm.trans e2
    · cases h1; exact absurd rfl (hlt m _ h2)
    · cases h2; exact absurd rfl (hlt n _ h1)
    · exact hi.inj n m v h1 h2

/-- A step that only builds parameters of rank below `r`. -/
structure Step (E : Env) (rank : String → ℕ) (b r : ℕ) (s s' : St) : Prop where
  grows : Grows s s'
  inv : Inv E b s → Inv E b s'
  low : ∀ n u, Dict.get? s'.memo n = some u → Dict.get? s.memo n = some u ∨ rank n < r

theorem Step.refl (E : Env) (rank : String → ℕ) (b r : ℕ) (s : St) : Step E rank b r s s :=
  ⟨Grows.refl s, id, fun _ _ h => .inl h⟩

theorem Step.trans {E : Env} {rank : String → ℕ} {b r : ℕ} {s t u : St} (h : Step E rank b r s t)
    (h' : Step E rank b r t u) : Step E rank b r s u :=
  ⟨h.grows.trans h'.grows, fun hi => h'.inv (h.inv hi), fun n x hx => by
    rcases h'.low n x hx with h1 | h1
    · exact h.low n x h1
    · exact .inr h1⟩

theorem Step.weaken {E : Env} {rank : String → ℕ} {b r r' : ℕ} {s t : St} (h : Step E rank b r s t)
    (hr : r ≤ r') : Step E rank b r' s t :=
  ⟨h.grows, h.inv, fun n x hx => (h.low n x hx).imp id fun h => h.trans_le hr⟩

theorem selfAttr_ok {n : String} {s s' : St} {v : Val} (h : selfAttr n s = (.ok v, s')) :
    s' = s ∧ Dict.get? s.fc.attrs n = some v := by
  unfold selfAttr at h
  split at h <;> simp_all

theorem getAttrRec_ok {E : Env} {rank : String → ℕ} {b r : ℕ} {build : String → M Val}
    {p : String × List String} {s s' : St} {v : Val} (fc : Fc) (hfc : s.fc = fc)
    (hb : p.1 ∈ Dict.keys fc.defaults → Dict.get? fc.attrs p.1 = some .none →
      ∀ s s' v, s.fc = fc → build p.1 s = (.ok v, s') →
      Step E rank b r s s' ∧ Dict.get? s'.memo p.1 = some v)
    (h : getAttrRec E build p s = (.ok v, s')) :
    Step E rank b r s s' ∧ ∃ t, InForce s' p.1 t ∧ follow E t p.2 = .ok v := by
  unfold getAttrRec at h
  obtain ⟨a, s₁, h1, h0⟩ := bind_ok h
  clear h
  obtain ⟨rfl, ha⟩ := selfAttr_ok h1
  obtain ⟨t, s₂, h2, h⟩ := bind_ok h0
  have hl : follow E t p.2 = .ok v ∧ s₂ = s' := by
    unfold lift at h
    exact ⟨(Prod.mk.inj h).1, (Prod.mk.inj h).2⟩
  obtain ⟨hl, rfl⟩ := hl
  unfold orBuild at h2
  split_ifs at h2 with hc
  · obtain ⟨rfl, hk⟩ := hc
    obtain ⟨h3, h4⟩ := hb (by rw [← hfc]; exact hk) (by rw [← hfc]; exact ha) _ _ _ hfc h2
    refine ⟨h3, t, .built t ?_ ?_ h4, hl⟩
    · rw [h3.grows.keeps.1]; exact ha
    · rw [h3.grows.keeps.1]; exact hk
  · obtain ⟨h3, rfl⟩ := Prod.mk.inj h2
    cases h3
    refine ⟨Step.refl .., a, ?_, hl⟩
    by_cases hn : a = .none
    · subst hn
      exact .absent ha fun hk => hc ⟨rfl, hk⟩
    · exact .explicit a ha hn

theorem readDefaults_ok {E : Env} {rank : String → ℕ} {b r : ℕ} {build : String → M Val} (fc : Fc)
    (ds : Dict String (String × List String))
    (hb : ∀ e ∈ ds, e.2.1 ∈ Dict.keys fc.defaults → Dict.get? fc.attrs e.2.1 = some .none →
      ∀ s s' v, s.fc = fc →
      build e.2.1 s = (.ok v, s') → Step E rank b r s s' ∧ Dict.get? s'.memo e.2.1 = some v)
    {s s' : St} {vs : Dict String Val} (hfc : s.fc = fc)
    (h : readDefaults E build ds s = (.ok vs, s')) :
    Step E rank b r s s' ∧ ∀ k, match Dict.get? ds k with
      | some p => ∃ t v, InForce s' p.1 t ∧ follow E t p.2 = .ok v ∧ Dict.get? vs k = some v
      | none => Dict.get? vs k = none := by
  induction ds generalizing s s' vs with
  | nil =>
    rw [readDefaults, pure_apply] at h
    obtain ⟨h1, rfl⟩ := Prod.mk.inj h
    cases h1
    exact ⟨Step.refl .., fun k => by simp [Dict.get?]⟩
  | cons e ds ih =>
    obtain ⟨key, p⟩ := e
    rw [readDefaults] at h
    obtain ⟨v, s₁, h1, h⟩ := bind_ok h
    obtain ⟨ws, s₂, h2, h⟩ := bind_ok h
    rw [pure_apply] at h
    obtain ⟨h3, rfl⟩ := Prod.mk.inj h
    cases h3
    obtain ⟨g1, t, ht, hv⟩ := getAttrRec_ok fc hfc (hb (key, p) (by simp)) h1
    obtain ⟨g2, hws⟩ := ih (fun e he => hb e (by simp [he])) (by rw [g1.grows.keeps.1, hfc]) h2
    refine ⟨g1.trans g2, fun k => ?_⟩
    rw [Dict.get?_cons, Dict.get?_cons]
    by_cases hk : key = k
    · subst hk
      simpa using ⟨t, ht.mono g2.grows, hv⟩
    · simpa [hk] using hws k

theorem fillIn_ok {E : Env} {rank : String → ℕ} {b : ℕ} {build : String → M Val} (fc : Fc)
    (hT : Tables fc rank) (name : String)
    (hb : ∀ n, n ∈ Dict.keys fc.defaults → Dict.get? fc.attrs n = some .none →
      rank n < rank name → ∀ s s' v, s.fc = fc →
      build n s = (.ok v, s') → Step E rank b (rank name) s s' ∧ Dict.get? s'.memo n = some v)
    {kwargs ks : Dict String Val} (hk : Dict.WF kwargs)
    {s s' : St} (hfc : s.fc = fc) (h : fillIn E build name kwargs s = (.ok ks, s')) :
    Step E rank b (rank name) s s' ∧
      (∀ k v, Dict.get? kwargs k = some v → Dict.get? ks k = some v) ∧
      (∀ ds k top path, Dict.get? fc.defaults name = some ds → Dict.get? ds k = some (top, path) →
        Dict.get? kwargs k = none →
        ∃ t v, InForce s' top t ∧ follow E t path = .ok v ∧ Dict.get? ks k = some v) ∧
      (∀ k, Dict.get? kwargs k = none →
        (∀ ds, Dict.get? fc.defaults name = some ds → Dict.get? ds k = none) →
        Dict.get? ks k = none) := by
  unfold fillIn at h
  rw [hfc] at h
  split at h
  · rename_i hn
    obtain ⟨h1, rfl⟩ := Prod.mk.inj h
    cases h1
    exact ⟨Step.refl .., fun _ _ h => h, fun ds _ _ _ h => by simp [hn] at h, fun _ h _ => h⟩
  · rename_i ds hds
    obtain ⟨vs, s₁, h1, h⟩ := bind_ok h
    rw [pure_apply] at h
    obtain ⟨h2, rfl⟩ := Prod.mk.inj h
    cases h2
    obtain ⟨g, hv⟩ := readDefaults_ok (rank := rank) (b := b) (r := rank name) fc ds
      (fun e he hk ha => hb e.2.1 hk ha (hT.rank name ds hds e he hk)) hfc h1
    refine ⟨g, ?_, ?_, ?_⟩
    · intro k v hkv
      rw [Dict.get?_update _ _ hk, hkv]; rfl
    · intro ds' k top path h2 h3 h4
      rw [hds] at h2
      cases h2
      have := hv k
      rw [h3] at this
      obtain ⟨t, v, h5, h6, h7⟩ := this
      exact ⟨t, v, h5, h6, by rw [Dict.get?_update _ _ hk, h4]; exact h7⟩
    · intro k h2 h3
      have := hv k
      rw [h3 ds hds] at this
      rw [Dict.get?_update _ _ hk, h2]
      exact this

/-- A parameter that has not been built before. -/
theorem build_new {E : Env} {rank : String → ℕ} {b : ℕ} {fuel : ℕ} {name : String}
    {args : List Val} {ty : Option Ty} {kwargs : Dict String Val} (hk : Dict.WF kwargs) {fc : Fc}
    (hT : Tables fc rank) {s s' : St} {v : Val} (hfc : s.fc = fc)
    (hm : Dict.get? s.memo name = none)
    (h : buildParam E fuel name args ty kwargs s = (.ok v, s')) :
    ∃ s₁ o, Step E rank b (rank name) s s₁ ∧ Dict.get? s₁.memo name = none ∧
      s' = { s₁ with heap := s₁.heap ++ [o], memo := Dict.set s₁.memo name (.obj s₁.heap.length) } ∧
      v = .obj s₁.heap.length ∧ BuiltFrom E s₁ name args ty kwargs o ∧
      (ty = none → name ∈ Dict.keys fc.defaults) := by
  induction fuel generalizing name args ty kwargs s s' v with
  | zero => simp [buildParam, raise] at h
  | succ fuel ih =>
    rw [buildParam_succ, hm] at h
    simp only at h
    obtain ⟨ks, s₁, h1, h⟩ := bind_ok h
    obtain ⟨t, s₂, h2, h⟩ := bind_ok h
    obtain ⟨ks', s₃, h3, h⟩ := bind_ok h
    obtain ⟨p, s₄, h4, h⟩ := bind_ok h
    obtain ⟨u, s₅, h5, h⟩ := bind_ok h
    obtain ⟨g, e1, e2, e3⟩ := fillIn_ok (rank := rank) (b := b) fc hT name (by
      intro n hn hna hr s s' v hs hbuild
      cases hmn : Dict.get? s.memo n with
      | some w =>
        cases fuel with
        | zero => simp [buildParam, raise] at hbuild
        | succ fuel =>
          rw [buildParam_succ, hmn] at hbuild
          obtain ⟨h6, rfl⟩ := Prod.mk.inj hbuild
          cases h6
          exact ⟨Step.refl .., hmn⟩
      | none =>
        obtain ⟨s₁, o, k1, k2, rfl, rfl, k3, k4⟩ := ih (by simp [Dict.WF, Dict.keys]) hs hmn hbuild
        have hgr := grows_put (o := o) k2
        have hfc₁ : s₁.fc = fc := by rw [k1.grows.keeps.1, hs]
        refine ⟨⟨k1.grows.trans hgr, fun hi => ?_, fun m u hu => ?_⟩, ?_⟩
        · exact (k1.inv hi).put k2 (by rw [hfc₁]; exact hn) (by rw [hfc₁]; exact hna) k3
        · simp only at hu
          rw [Dict.get?_set] at hu
          split_ifs at hu with hmn'
          · subst hmn'; exact .inr hr
          · exact ((k1.weaken hr.le).low m u hu)
        · simp only
          rw [Dict.get?_set]; simp) hk hfc h1
    have hs₁ : s₁.fc = fc := by rw [g.grows.keeps.1, hfc]
    -- the class
    have ht : s₂ = s₁ ∧ some t = (ty <|> Dict.get? fc.types name) := by
      unfold typeOf at h2
      cases ty with
      | some t' =>
        simp only at h2
        obtain ⟨h6, rfl⟩ := Prod.mk.inj h2
        cases h6
        exact ⟨rfl, rfl⟩
      | none =>
        simp only at h2
        rw [hs₁] at h2
        split at h2
        · rename_i t' ht'
          obtain ⟨h6, rfl⟩ := Prod.mk.inj h2
          cases h6
          exact ⟨rfl, ht'.symm⟩
        · simp at h2
    obtain ⟨rfl, ht⟩ := ht
    unfold withPrecision at h3
    obtain ⟨h6, rfl⟩ := Prod.mk.inj h3
    have hks' := (Except.ok.inj h6).symm
    -- the constructor
    unfold construct at h4
    split_ifs at h4 with hdup
    · simp at h4
    split at h4
    · simp at h4
    obtain ⟨h7, rfl⟩ := Prod.mk.inj h4
    have hp := (Except.ok.inj h7).symm
    subst hp
    unfold remember at h5
    obtain ⟨-, rfl⟩ := Prod.mk.inj h5
    rw [pure_apply] at h
    obtain ⟨h8, rfl⟩ := Prod.mk.inj h
    have hv := (Except.ok.inj h8).symm
    subst hv
    refine ⟨s₂, ⟨t, args, ks'⟩, g, ?_, rfl, rfl, ⟨?_, rfl, ?_, ?_, ?_⟩, ?_⟩
    · cases hx : Dict.get? s₂.memo name with
      | none => rfl
      | some x =>
        rcases g.low name x hx with h9 | h9
        · rw [hm] at h9; cases h9
        · exact absurd h9 (lt_irrefl _)
    · simp only
      rw [hs₁]; exact ht
    · intro k w hw
      have := e1 k w hw
      simp only
      rw [hks']
      split_ifs with hh
      · rw [Dict.get?_set]
        split_ifs with hkk
        · subst hkk
          exact absurd (Dict.mem_keys_iff.2 ⟨w, this⟩) hh.2
        · exact this
      · exact this
    · intro ds k top path h9 h10 h11
      rw [hs₁] at h9
      obtain ⟨x, w, h12, h13, h14⟩ := e2 ds k top path h9 h10 h11
      refine ⟨x, w, h12, h13, ?_⟩
      simp only
      rw [hks']
      split_ifs with hh
      · rw [Dict.get?_set]
        split_ifs with hkk
        · subst hkk
          exact absurd (Dict.mem_keys_iff.2 ⟨w, h14⟩) hh.2
        · exact h14
      · exact h14
    · intro k h9 h10
      rw [hs₁] at h10
      have h11 := e3 k h9 h10
      simp only
      rw [hks']
      by_cases hkk : k = "high_precision"
      · subst hkk
        have hnk : "high_precision" ∉ Dict.keys ks := Dict.get?_eq_none.1 h11
        by_cases hh : t.highPrecision = true
        · rw [if_pos ⟨hh, hnk⟩, if_pos ⟨rfl, (takes_iff t).1 hh⟩, Dict.get?_set]; simp
        · rw [if_neg (fun h => hh h.1), if_neg (fun h => hh ((takes_iff t).2 h.2))]; exact h11
      · have hr : (if k = "high_precision" ∧ takesPrecision t then some s₂.fc.highPrecision
            else none) = none := if_neg fun h => hkk h.1
        rw [hr]
        split_ifs
        · rw [Dict.get?_set, if_neg (Ne.symm hkk)]; exact h11
        · exact h11
    · rintro rfl
      refine hT.known name ?_
      refine Dict.mem_keys_iff.2 ⟨t, ?_⟩
      simpa using ht.symm

/-- What every name stands for in a state. -/
def worldOf (s : St) (n : String) : Val :=
  match Dict.get? s.fc.attrs n with
  | some .none => (Dict.get? s.memo n).getD .none
  | some v => v
  | none => .none

theorem worldOf_explicit {s : St} {n : String} {v : Val} (h : Dict.get? s.fc.attrs n = some v)
    (hv : v ≠ .none) : worldOf s n = v := by
  unfold worldOf
  rw [h]
  cases v <;> simp_all

theorem worldOf_none {s : St} {n : String} (h : Dict.get? s.fc.attrs n = some .none) :
    worldOf s n = (Dict.get? s.memo n).getD .none := by
  unfold worldOf
  rw [h]

/-- The memo only has entries for names with defaults. -/
def MemoKnown (s : St) : Prop := ∀ n v, Dict.get? s.memo n = some v → n ∈ Dict.keys s.fc.defaults

theorem InForce.world {s : St} (hm : MemoKnown s) {n : String} {v : Val} (h : InForce s n v) :
    worldOf s n = v := by
  cases h with
  | explicit _ h1 h2 => exact worldOf_explicit h1 h2
  | built _ h1 h2 h3 => rw [worldOf_none h1, h3]; rfl
  | absent h1 h2 =>
    rw [worldOf_none h1]
    cases hx : Dict.get? s.memo n with
    | none => rfl
    | some x => exact absurd (hm n x hx) h2

theorem BuiltFrom.world {E : Env} {s : St} (hm : MemoKnown s) {n : String} {args : List Val}
    {ty : Option Ty} {kwargs : Dict String Val} {o : Obj} (hb : BuiltFrom E s n args ty kwargs o) :
    ObjFrom E s.fc (worldOf s) n args ty kwargs o := by
  refine ⟨hb.ty, hb.args, hb.explicit, ?_, hb.other⟩
  intro ds k top path h1 h2 h3
  obtain ⟨t, v, h4, h5, h6⟩ := hb.default ds k top path h1 h2 h3
  exact ⟨v, by rw [h4.world hm]; exact h5, h6⟩

theorem Inv.known {E : Env} {b : ℕ} {s : St} (h : Inv E b s) : MemoKnown s :=
  fun n v hv => (h.memo n v hv).1

theorem Inv.start (E : Env) (s : St) (h : s.memo = []) : Inv E s.heap.length s := by
  refine ⟨le_rfl, ?_, ?_, ?_⟩
  · intro i hi ho
    omega
  · intro n v hv
    rw [h] at hv
    cases hv
  · intro n m v hv
    rw [h] at hv
    cases hv

/-- Building a parameter for which nothing has been assigned, with a memo. -/
theorem build_step {E : Env} {rank : String → ℕ} {b : ℕ} {fuel : ℕ} {name : String} {s s' : St}
    {v : Val} (hT : Tables s.fc rank) (ha : Dict.get? s.fc.attrs name = some .none)
    (hi : Inv E b s) (h : buildParam E fuel name [] none [] s = (.ok v, s')) :
    Grows s s' ∧ Inv E b s' ∧ Dict.get? s'.memo name = some v := by
  cases hm : Dict.get? s.memo name with
  | some w =>
    cases fuel with
    | zero => simp [buildParam, raise] at h
    | succ fuel =>
      rw [buildParam_succ, hm] at h
      obtain ⟨h6, rfl⟩ := Prod.mk.inj h
      cases h6
      exact ⟨Grows.refl _, hi, hm⟩
  | none =>
    obtain ⟨s₁, o, g, hn, rfl, rfl, hb, hk⟩ :=
      build_new (b := b) (by simp [Dict.WF, Dict.keys]) hT rfl hm h
    have hfc : s₁.fc = s.fc := g.grows.keeps.1
    refine ⟨g.grows.trans (grows_put hn), ?_, ?_⟩
    · exact (g.inv hi).put hn (by rw [hfc]; exact hk rfl) (by rw [hfc]; exact ha) hb
    · simp only
      rw [Dict.get?_set]; simp

theorem getParam_step {E : Env} {rank : String → ℕ} {b : ℕ} {fuel : ℕ} {name : String} {s s' : St}
    {v : Val} (hT : Tables s.fc rank) (hi : Inv E b s) (h : getParam E fuel name s = (.ok v, s')) :
    Grows s s' ∧ Inv E b s' ∧ ∃ w, convert E s.fc.highPrecision w = .ok v ∧
      ((Dict.get? s.fc.attrs name = some w ∧ w ≠ .none) ∨
        (Dict.get? s.fc.attrs name = some .none ∧ Dict.get? s'.memo name = some w)) := by
  unfold getParam at h
  obtain ⟨a, s₁, h1, h0⟩ := bind_ok h
  clear h
  obtain ⟨rfl, ha⟩ := selfAttr_ok h1
  obtain ⟨w, s₂, h2, h3⟩ := bind_ok h0
  have hc : convert E s₂.fc.highPrecision w = .ok v ∧ s₂ = s' := by
    unfold converted at h3
    exact ⟨(Prod.mk.inj h3).1, (Prod.mk.inj h3).2⟩
  obtain ⟨hc, rfl⟩ := hc
  unfold orDefault at h2
  split_ifs at h2 with hn
  · subst hn
    obtain ⟨g1, g2, g3⟩ := build_step hT ha hi h2
    rw [g1.keeps.1] at hc
    exact ⟨g1, g2, w, hc, .inr ⟨ha, g3⟩⟩
  · obtain ⟨h4, rfl⟩ := Prod.mk.inj h2
    cases h4
    exact ⟨Grows.refl _, hi, a, hc, .inl ⟨ha, hn⟩⟩

theorem getParam_world {name : String} {s s' s'' : St} {w : Val} (hg : Grows s' s'')
    (hfc : s'.fc = s.fc)
    (h : (Dict.get? s.fc.attrs name = some w ∧ w ≠ .none) ∨
        (Dict.get? s.fc.attrs name = some .none ∧ Dict.get? s'.memo name = some w)) :
    worldOf s'' name = w := by
  have hfc' : s''.fc = s.fc := hg.keeps.1.trans hfc
  rcases h with ⟨h1, h2⟩ | ⟨h1, h2⟩
  · exact worldOf_explicit (by rw [hfc']; exact h1) h2
  · rw [worldOf_none (by rw [hfc']; exact h1), hg.memo _ _ h2]; rfl

theorem requests_step {E : Env} {rank : String → ℕ} {b : ℕ} {fuel : ℕ} {ns : List String}
    {s s' : St} {vs : List Val} (hT : Tables s.fc rank) (hi : Inv E b s)
    (h : requests E fuel ns s = (.ok vs, s')) :
    Grows s s' ∧ Inv E b s' ∧ List.Forall₂
      (fun n v => convert E s.fc.highPrecision (worldOf s' n) = .ok v ∧
        (Dict.get? s.fc.attrs n = some .none → ∃ w, Dict.get? s'.memo n = some w)) ns vs := by
  induction ns generalizing s s' vs with
  | nil =>
    rw [requests, pure_apply] at h
    obtain ⟨h1, rfl⟩ := Prod.mk.inj h
    cases h1
    exact ⟨Grows.refl _, hi, .nil⟩
  | cons n ns ih =>
    rw [requests] at h
    obtain ⟨v, s₁, h1, h0⟩ := bind_ok h
    obtain ⟨ws, s₂, h2, h3⟩ := bind_ok h0
    rw [pure_apply] at h3
    obtain ⟨h4, rfl⟩ := Prod.mk.inj h3
    cases h4
    obtain ⟨g1, i1, w, c1, c2⟩ := getParam_step hT hi h1
    have hfc : s₁.fc = s.fc := g1.keeps.1
    obtain ⟨g2, i2, f2⟩ := ih (by rw [hfc]; exact hT) i1 h2
    rw [hfc] at f2
    refine ⟨g1.trans g2, i2, .cons ⟨?_, ?_⟩ f2⟩
    · rw [getParam_world g2 hfc c2]; exact c1
    · intro ha
      rcases c2 with ⟨h5, h6⟩ | ⟨-, h6⟩
      · rw [ha] at h5; cases h5; exact absurd rfl h6
      · exact ⟨w, g2.memo _ _ h6⟩

/-! ### C48 -/

/-- **C48.** Parameters that have been assigned are used as they are; nothing is built. -/
theorem C48_explicit (E : Env) (fuel : ℕ) {name : String} {s : St} {v : Val}
    (h : Dict.get? s.fc.attrs name = some v) (hv : v ≠ .none) (hs : ∀ t, v ≠ .str t) :
    getParam E fuel name s = (.ok v, s) := by
  unfold getParam
  rw [bind_apply]
  unfold selfAttr
  rw [h]
  simp only
  rw [bind_apply]
  simp only [orDefault, if_neg hv, converted]
  unfold convert
  cases v <;> simp_all

theorem Inv.described {E : Env} {b : ℕ} {s : St} {fc : Fc} (hi : Inv E b s) (hfc : s.fc = fc) :
    Described E fc (worldOf s) b s.heap := by
  subst hfc
  refine ⟨fun n v h1 h2 => worldOf_explicit h1 h2, ?_, ?_⟩
  · intro i h1 h2
    obtain ⟨n, h3⟩ := hi.objs i h1 h2
    obtain ⟨-, h4, i', o, h5, -, h6, h7⟩ := hi.memo n _ h3
    cases h5
    refine ⟨n, ⟨by rw [worldOf_none h4, h3]; rfl, h4⟩, ?_⟩
    rintro m ⟨m1, m2⟩
    rw [worldOf_none m2] at m1
    cases hm : Dict.get? s.memo m with
    | none => rw [hm] at m1; cases m1
    | some x =>
      rw [hm] at m1
      simp only [Option.getD_some] at m1
      subst m1
      exact hi.inj m n _ hm h3
  · intro n i h1 h2
    rw [worldOf_none h2] at h1
    cases hm : Dict.get? s.memo n with
    | none => rw [hm] at h1; cases h1
    | some x =>
      rw [hm] at h1
      simp only [Option.getD_some] at h1
      subst h1
      obtain ⟨-, -, i', o, h5, h6, h7, h8⟩ := hi.memo n _ hm
      cases h5
      exact ⟨h6, o, h7, h8.world hi.known⟩

/-- **C48.** However parameters are requested of a forecaster in one go: there is one value for
every name, the assigned one if there is one; every request is answered with it; and every object
built is the one for exactly one parameter without an assigned value, made from the values of the
names in its defaults. So whatever depends on the scenario depends on the same scenario, which is
the one that is returned for `scenario`. -/
theorem C48_shared {E : Env} {rank : String → ℕ} {fuel : ℕ} {ns : List String} {s s' : St}
    {vs : List Val} (hT : Tables s.fc rank) (hm : s.memo = [])
    (h : requests E fuel ns s = (.ok vs, s')) :
    ∃ world, Described E s.fc world s.heap.length s'.heap ∧
      List.Forall₂ (fun n v => convert E s.fc.highPrecision (world n) = .ok v) ns vs ∧
      (∀ n ∈ ns, Dict.get? s.fc.attrs n = some .none → ∃ i, world n = .obj i) := by
  obtain ⟨g, hi, hf⟩ := requests_step hT (Inv.start E s hm) h
  have hfc : s'.fc = s.fc := g.keeps.1
  refine ⟨worldOf s', hi.described hfc, hf.imp fun _ _ h => h.1, ?_⟩
  intro n hn ha
  have : ∃ w, Dict.get? s'.memo n = some w := by
    clear h
    induction hf with
    | nil => simp at hn
    | cons h1 _ ih =>
      rcases List.mem_cons.1 hn with rfl | hn
      · exact h1.2 ha
      · exact ih hn
  obtain ⟨w, hw⟩ := this
  obtain ⟨-, -, i, o, rfl, h1, h2, -⟩ := hi.memo n w hw
  exact ⟨i, by rw [worldOf_none (by rw [hfc]; exact ha), hw]; rfl⟩

/-- **C48.** A parameter that is built with explicit arguments gets them, and its defaults for the
rest; it is a new object, the last one built; the others are built for it, as above. -/
theorem C48_explicit_arguments {E : Env} {rank : String → ℕ} {fuel : ℕ} {name : String}
    {args : List Val} {ty : Option Ty} {kwargs : Dict String Val} {s s' : St} {v : Val}
    (hT : Tables s.fc rank) (hk : Dict.WF kwargs)
    (h : ownMemo (buildParam E fuel name args ty kwargs) s = (.ok v, s')) :
    ∃ world others o, s'.heap = others ++ [o] ∧ v = .obj others.length ∧
      s.heap.length ≤ others.length ∧ ObjFrom E s.fc world name args ty kwargs o ∧
      Described E s.fc world s.heap.length others := by
  unfold ownMemo at h
  simp only at h
  obtain ⟨h1, rfl⟩ := Prod.mk.inj h
  have h2 : buildParam E fuel name args ty kwargs { s with memo := [] } =
      (.ok v, (buildParam E fuel name args ty kwargs { s with memo := [] }).2) := by rw [← h1]
  obtain ⟨s₁, o, g, hn, e, rfl, hb, -⟩ := build_new (b := s.heap.length) (s := { s with memo := [] })
    hk hT rfl rfl h2
  have hi := g.inv (Inv.start E { s with memo := [] } rfl)
  have hfc : s₁.fc = s.fc := g.grows.keeps.1
  rw [e]
  refine ⟨worldOf s₁, s₁.heap, o, rfl, rfl, hi.heap, ?_, hi.described hfc⟩
  rw [← hfc]; exact hb.world hi.known

/-- **C48.** Asking for, building and running leave the forecaster and all objects as they were,
also if they raise. -/
theorem C48_nothing_changed (E : Env) (fuel : ℕ) (s : St) :
    (∀ name, Keeps s (getParam E fuel name s).2) ∧
    (∀ name args ty kwargs, Keeps s (buildParam E fuel name args ty kwargs s).2) ∧
    (∀ name args ty kwargs, Keeps s (ownMemo (buildParam E fuel name args ty kwargs) s).2) ∧
    (∀ args kwargs, Keeps s (buildAllocationStrategy E fuel args kwargs s).2) ∧
    (∀ people accounts debts, Keeps s (run E fuel people accounts debts s).2) :=
  ⟨fun n => safe_getParam E fuel n s, fun n a t k => safe_buildParam E fuel n a t k s,
    fun n a t k => (safe_buildParam E fuel n a t k).ownMemo s,
    fun _ _ => (safe_buildParam E fuel _ _ _ _).ownMemo s,
    fun p a d => safe_run E fuel p a d s⟩

/-- **C48.** `set_param` sets the one attribute and nothing else; if it raises, nothing is set. The
object is then returned by `get_param`, without anything being built. -/
theorem C48_set_param (E : Env) (fuel : ℕ) {rank : String → ℕ} {name : String} {args : List Val}
    {ty : Option Ty} {kwargs : Dict String Val} {s : St} (hT : Tables s.fc rank)
    (hk : Dict.WF kwargs) (hm : Dict.get? s.memo name = none) :
    match setParam E fuel name args ty kwargs s with
    | (.ok (), s') => ∃ i, s.heap.length ≤ i ∧ i < s'.heap.length ∧
        s'.fc = { s.fc with attrs := Dict.set s.fc.attrs name (.obj i) } ∧
        ∀ fuel', getParam E fuel' name s' = (.ok (.obj i), s')
    | (.error _, s') => s'.fc = s.fc := by
  unfold setParam
  rw [bind_apply]
  have hs := safe_buildParam E fuel name args ty kwargs s
  generalize hb : buildParam E fuel name args ty kwargs s = r at hs
  obtain ⟨x, s₁⟩ := r
  cases x with
  | error e => exact hs.1
  | ok v =>
    simp only [setAttr]
    obtain ⟨s₂, o, g, -, rfl, rfl, -, -⟩ := build_new (b := 0) hk hT rfl hm hb
    have hfc : s₂.fc = s.fc := g.grows.keeps.1
    refine ⟨s₂.heap.length, g.grows.keeps.2.length_le, by simp, by simp [hfc], fun fuel' => ?_⟩
    refine C48_explicit E fuel' ?_ (by simp) (by simp)
    simp only
    rw [Dict.get?_set]; simp

/-- **C48.** A forecast gets, for every parameter, the one value that stands for it (see
`C48_shared`): each sub-forecast has the strategy of its own name; all start in the scenario's
initial year and have the given people, accounts and debts; the forecast's scenario is the one that
everything else was built with. Objects that are built are new: a second run shares none of them. -/
theorem C48_run {E : Env} {rank : String → ℕ} {fuel : ℕ} {people accounts debts : Val} {s s' : St}
    {r : Run} (hT : Tables s.fc rank) (h : run E fuel people accounts debts s = (.ok r, s')) :
    ∃ world, Described E s.fc world s.heap.length s'.heap ∧
      convert E s.fc.highPrecision (world "scenario") = .ok r.scenario ∧
      convert E s.fc.highPrecision (world "living_expenses_strategy") = .ok r.livingExpensesStrategy ∧
      convert E s.fc.highPrecision (world "saving_strategy") = .ok r.savingStrategy ∧
      convert E s.fc.highPrecision (world "withdrawal_strategy") = .ok r.withdrawalStrategy ∧
      convert E s.fc.highPrecision (world "tax_treatment") = .ok r.taxTreatment ∧
      (∃ year, E.getattr r.scenario "initial_year" = .ok year ∧ r.incomeYear = year ∧
        r.livingExpensesYear = year ∧ r.savingYear = year ∧ r.withdrawalYear = year ∧
        r.taxYear = year) ∧
      r.incomePeople = people ∧ r.livingExpensesPeople = people ∧ r.withdrawalPeople = people ∧
      r.taxPeople = people ∧ r.savingAccounts = accounts ∧ r.withdrawalAccounts = accounts ∧
      r.savingDebts = debts ∧ (∀ p ∈ r.precisions, p = s.fc.highPrecision) ∧
      (∀ n ∈ ["scenario", "living_expenses_strategy", "saving_strategy", "withdrawal_strategy",
        "tax_treatment"], Dict.get? s.fc.attrs n = some .none → ∃ i, world n = .obj i) := by
  unfold run ownMemo at h
  simp only at h
  obtain ⟨h1, rfl⟩ := Prod.mk.inj h
  clear h
  generalize hx : (do
    let scenario ← getParam E fuel "scenario"
    let year ← lift (E.getattr scenario "initial_year")
    let living ← getParam E fuel "living_expenses_strategy"
    let saving ← getParam E fuel "saving_strategy"
    let withdrawal ← getParam E fuel "withdrawal_strategy"
    let tax ← getParam E fuel "tax_treatment"
    assemble year people accounts debts scenario living saving withdrawal tax : M Run)
      { s with memo := [] } = x at h1
  obtain ⟨x, t⟩ := x
  simp only at h1
  subst h1
  obtain ⟨sc, s₁, k1, x1⟩ := bind_ok hx
  obtain ⟨year, s₂, k2, x2⟩ := bind_ok x1
  obtain ⟨le, s₃, k3, x3⟩ := bind_ok x2
  obtain ⟨sv, s₄, k4, x4⟩ := bind_ok x3
  obtain ⟨wd, s₅, k5, x5⟩ := bind_ok x4
  obtain ⟨tx, s₆, k6, x6⟩ := bind_ok x5
  clear hx x1 x2 x3 x4 x5
  have hy : E.getattr sc "initial_year" = .ok year ∧ s₁ = s₂ := by
    unfold lift at k2
    exact ⟨(Prod.mk.inj k2).1, (Prod.mk.inj k2).2⟩
  obtain ⟨hy, rfl⟩ := hy
  -- the same as five requests
  have hreq : requests E fuel ["scenario", "living_expenses_strategy", "saving_strategy",
      "withdrawal_strategy", "tax_treatment"] { s with memo := [] } = (.ok [sc, le, sv, wd, tx], s₆) := by
    simp only [requests, bind_apply, pure_apply, k1, k3, k4, k5, k6]
  unfold assemble at x6
  obtain ⟨hr, rfl⟩ := Prod.mk.inj x6
  have hr' := (Except.ok.inj hr).symm
  have hfc : s₆.fc = s.fc := (requests_step (s := { s with memo := [] }) hT
    (Inv.start E { s with memo := [] } rfl) hreq).1.keeps.1
  obtain ⟨world, w1, w2, w3⟩ := C48_shared (s := { s with memo := [] }) hT rfl hreq
  simp only [List.forall₂_cons, List.forall₂_nil_left_iff, and_true] at w2
  obtain ⟨c1, c2, c3, c4, c5⟩ := w2
  subst hr'
  refine ⟨world, w1, c1, c2, c3, c4, c5, ⟨year, hy, rfl, rfl, rfl, rfl, rfl⟩, rfl, rfl, rfl, rfl,
    rfl, rfl, rfl, ?_, w3⟩
  intro p hp
  have := List.eq_of_mem_replicate hp
  rw [this, hfc]

theorem fillIn_congr {E : Env} {build build' : String → M Val} {fc : Fc} {name : String}
    {rank : String → ℕ} (hT : Tables fc rank)
    (hb : ∀ n, n ∈ Dict.keys fc.defaults → rank n < rank name → ∀ s, s.fc = fc →
      build n s = build' n s) (hsafe : ∀ n, Safe (build' n)) (kwargs : Dict String Val) (s : St)
    (hfc : s.fc = fc) : fillIn E build name kwargs s = fillIn E build' name kwargs s := by
  unfold fillIn
  rw [hfc]
  cases hds : Dict.get? fc.defaults name with
  | none => rfl
  | some ds =>
    simp only
    have hall : ∀ e ∈ ds, e.2.1 ∈ Dict.keys fc.defaults → rank e.2.1 < rank name :=
      hT.rank name ds hds
    clear hds
    have key : readDefaults E build ds s = readDefaults E build' ds s := by
      induction ds generalizing s with
      | nil => rfl
      | cons e ds ih =>
        obtain ⟨k, p⟩ := e
        have h1 : getAttrRec E build p s = getAttrRec E build' p s := by
          unfold getAttrRec
          rw [bind_apply, bind_apply]
          unfold selfAttr
          cases Dict.get? s.fc.attrs p.1 with
          | none => rfl
          | some a =>
            simp only
            rw [bind_apply, bind_apply]
            have : orBuild build p.1 a s = orBuild build' p.1 a s := by
              unfold orBuild
              rw [hfc]
              split_ifs with hc
              · exact hb _ hc.2 (hall (k, p) (by simp) hc.2) s hfc
              · rfl
            rw [this]
        rw [readDefaults, readDefaults, bind_apply, bind_apply, h1]
        have hs := safe_getAttrRec (E := E) hsafe p s
        generalize getAttrRec E build' p s = r at hs ⊢
        obtain ⟨x, s₁⟩ := r
        cases x with
        | error e => rfl
        | ok a =>
          simp only
          rw [bind_apply, bind_apply, ih s₁ (hs.1.trans hfc) fun e he => hall e (by simp [he])]
    rw [bind_apply, bind_apply, key]

/-- **C48.** With defaults that are not circular, building a parameter always comes to an end: the
answer does not depend on how deep the recursion may go. -/
theorem C48_terminates {E : Env} {rank : String → ℕ} (fuel : ℕ) {name : String} {args : List Val}
    {ty : Option Ty} {kwargs : Dict String Val} (s : St) (hT : Tables s.fc rank)
    (hf : rank name < fuel) : buildParam E fuel name args ty kwargs s =
      buildParam E (rank name + 1) name args ty kwargs s := by
  suffices ∀ (f f' : ℕ) (name : String) (args : List Val) (ty : Option Ty)
      (kwargs : Dict String Val) (t : St), t.fc = s.fc → rank name < f → rank name < f' →
      buildParam E f name args ty kwargs t = buildParam E f' name args ty kwargs t from
    this _ _ _ _ _ _ s rfl hf (Nat.lt_succ_self _)
  intro f
  induction f with
  | zero => intro _ _ _ _ _ _ _ h; omega
  | succ f ih =>
    intro f' name args ty kwargs t ht h1 h2
    cases f' with
    | zero => omega
    | succ f' =>
      rw [buildParam_succ, buildParam_succ]
      split
      · rfl
      · rw [bind_apply, bind_apply]
        rw [fillIn_congr hT (fun n _ hr u hu => ih f' n [] none [] u hu (by omega) (by omega))
          (fun n => safe_buildParam E f' n [] none []) kwargs t ht]

/-- The ranks of the shipped tables: everything else may depend on the scenario. -/
def shippedRank (n : String) : ℕ := if n = "scenario" then 0 else 1

/-- **C48.** The tables of `Forecaster` and of `ForecasterCanada` are not circular and complete. -/
theorem C48_shipped_tables (b st sc le sv wd tx hp : Val) :
    Tables (init b st sc le sv wd tx hp) shippedRank ∧
    Tables (initCanada b st sc le sv wd tx hp) shippedRank := by
  constructor
  · refine ⟨?_, ?_⟩
    · simp only [init]; decide
    · intro n ds h e
      have key : ∀ d ∈ (init b st sc le sv wd tx hp).defaults, ∀ e ∈ d.2,
          e.2.1 ∈ Dict.keys (init b st sc le sv wd tx hp).defaults →
            shippedRank e.2.1 < shippedRank d.1 := by
        simp only [init]; decide
      exact key (n, ds) (Dict.mem_of_get? h) e
  · refine ⟨?_, ?_⟩
    · simp only [init, initCanada]; decide
    · intro n ds h e
      have key : ∀ d ∈ (initCanada b st sc le sv wd tx hp).defaults, ∀ e ∈ d.2,
          e.2.1 ∈ Dict.keys (initCanada b st sc le sv wd tx hp).defaults →
            shippedRank e.2.1 < shippedRank d.1 := by
        simp only [init, initCanada]; decide
      exact key (n, ds) (Dict.mem_of_get? h) e

/-- **C48.** In a forecast, living expenses and taxes that are left to the forecaster are adjusted
for inflation by the scenario of that forecast - the assigned one or a new one -, and not by
another. -/
theorem C48_same_inflation {E : Env} {fuel : ℕ} {people accounts debts : Val} {s s' : St} {r : Run}
    {b st sc sv wd hp : Val} (hs : ∀ x, sc ≠ .str x)
    (hfc : s.fc = init b st sc .none sv wd .none hp ∨ s.fc = initCanada b st sc .none sv wd .none hp)
    (h : run E fuel people accounts debts s = (.ok r, s')) :
    (sc ≠ .none → r.scenario = sc) ∧
    ∃ i j o p adjust, r.livingExpensesStrategy = .obj i ∧ r.taxTreatment = .obj j ∧
      s'.heap[i]? = some o ∧ s'.heap[j]? = some p ∧
      E.getattr r.scenario "inflation_adjust" = .ok adjust ∧
      Dict.get? o.kwargs "inflation_adjust" = some adjust ∧
      Dict.get? p.kwargs "inflation_adjust" = some adjust := by
  have hT : Tables s.fc shippedRank := by
    rcases hfc with e | e <;> rw [e]
    · exact (C48_shipped_tables ..).1
    · exact (C48_shipped_tables ..).2
  have hsc : Dict.get? s.fc.attrs "scenario" = some sc := by
    rcases hfc with e | e <;> rw [e] <;> rfl
  have hle : Dict.get? s.fc.attrs "living_expenses_strategy" = some .none := by
    rcases hfc with e | e <;> rw [e] <;> rfl
  have htx : Dict.get? s.fc.attrs "tax_treatment" = some .none := by
    rcases hfc with e | e <;> rw [e] <;> rfl
  have hdl : ∃ ds, Dict.get? s.fc.defaults "living_expenses_strategy" = some ds ∧
      Dict.get? ds "inflation_adjust" = some ("scenario", ["inflation_adjust"]) := by
    rcases hfc with e | e <;> rw [e] <;> exact ⟨_, rfl, rfl⟩
  have hdt : ∃ ds, Dict.get? s.fc.defaults "tax_treatment" = some ds ∧
      Dict.get? ds "inflation_adjust" = some ("scenario", ["inflation_adjust"]) := by
    rcases hfc with e | e <;> rw [e] <;> exact ⟨_, rfl, rfl⟩
  obtain ⟨world, w, c1, c2, -, -, c5, -, -, -, -, -, -, -, -, -, hnew⟩ := C48_run hT h
  -- the scenario
  have hr : world "scenario" = r.scenario := by
    by_cases hn : sc = .none
    · subst hn
      obtain ⟨i, hi⟩ := hnew "scenario" (by simp) hsc
      rw [hi] at c1 ⊢
      exact Except.ok.inj c1
    · have := w.sources "scenario" sc hsc hn
      rw [this] at c1 ⊢
      unfold convert at c1
      cases sc <;> simp_all
  refine ⟨fun hn => by rw [← hr]; exact w.sources "scenario" sc hsc hn, ?_⟩
  obtain ⟨i, hi⟩ := hnew "living_expenses_strategy" (by simp) hle
  obtain ⟨j, hj⟩ := hnew "tax_treatment" (by simp) htx
  obtain ⟨-, o, ho, fo⟩ := w.object _ i hi hle
  obtain ⟨-, p, hp', fp⟩ := w.object _ j hj htx
  obtain ⟨ds, d1, d2⟩ := hdl
  obtain ⟨es, e1, e2⟩ := hdt
  obtain ⟨x, x1, x2⟩ := fo.default ds _ _ _ d1 d2 rfl
  obtain ⟨y, y1, y2⟩ := fp.default es _ _ _ e1 e2 rfl
  rw [hr] at x1 y1
  rw [x1] at y1
  cases y1
  rw [hi] at c2
  rw [hj] at c5
  refine ⟨i, j, o, p, x, (Except.ok.inj c2).symm, (Except.ok.inj c5).symm, ho, hp', ?_, x2, y2⟩
  unfold follow at x1
  simp only [List.foldlM_cons, List.foldlM_nil] at x1
  cases hg : E.getattr r.scenario "inflation_adjust" with
  | error e => rw [hg] at x1; cases x1
  | ok z => rw [hg] at x1; exact x1

/-- **C48, refuted.** `build_allocation_strategy` never builds anything: the class is passed as the
argument `strategy`, which the defaults give as well. -/
theorem C48_build_allocation_strategy_refuted (E : Env) (fuel : ℕ) (args : List Val)
    (kwargs : Dict String Val) (hk : Dict.WF kwargs) (s : St) (b st sc le sv wd tx hp : Val)
    (hfc : s.fc = init b st sc le sv wd tx hp) (v : Val) :
    (buildAllocationStrategy E fuel args kwargs s).1 ≠ .ok v := by
  intro h
  unfold buildAllocationStrategy ownMemo at h
  simp only at h
  generalize hx : buildParam E fuel "allocation_strategy" (.cls .allocation :: args) none kwargs
    { s with memo := [] } = x at h
  obtain ⟨x, s'⟩ := x
  simp only at h
  subst h
  have hT := (C48_shipped_tables b st sc le sv wd tx hp).1
  cases fuel with
  | zero => simp [buildParam, raise] at hx
  | succ fuel =>
    rw [buildParam_succ] at hx
    simp only [Dict.get?] at hx
    obtain ⟨ks, s₁, h1, hx⟩ := bind_ok hx
    obtain ⟨t, s₂, h2, hx⟩ := bind_ok hx
    obtain ⟨ks', s₃, h3, hx⟩ := bind_ok hx
    obtain ⟨p, s₄, h4, hx⟩ := bind_ok hx
    have hs₁ : s₁.fc = init b st sc le sv wd tx hp := by
      have := safe_fillIn (E := E) (build := fun n => buildParam E fuel n [] none [])
        (fun n => safe_buildParam E fuel n [] none []) "allocation_strategy" kwargs
        { s with memo := [] }
      rw [h1] at this
      exact this.1.trans hfc
    have ht : t = .allocation := by
      unfold typeOf at h2
      simp only [hs₁] at h2
      have : Dict.get? (init b st sc le sv wd tx hp).types "allocation_strategy" =
        some .allocation := rfl
      rw [this] at h2
      exact (Except.ok.inj (Prod.mk.inj h2).1).symm
    subst ht
    -- `strategy` is among the keyword arguments
    have hmem : "strategy" ∈ Dict.keys ks := by
      unfold fillIn at h1
      simp only [hfc] at h1
      have hds : ∃ ds, Dict.get? (init b st sc le sv wd tx hp).defaults "allocation_strategy" =
          some (("strategy", ("settings", ["allocation_strategy"])) :: ds) := ⟨_, rfl⟩
      obtain ⟨ds, hds⟩ := hds
      rw [hds] at h1
      simp only at h1
      obtain ⟨vs, s₅, h5, h1⟩ := bind_ok h1
      rw [pure_apply] at h1
      have := Except.ok.inj (Prod.mk.inj h1).1
      subst this
      rw [readDefaults] at h5
      obtain ⟨w, s₆, -, h5⟩ := bind_ok h5
      obtain ⟨ws, s₇, -, h5⟩ := bind_ok h5
      rw [pure_apply] at h5
      have := Except.ok.inj (Prod.mk.inj h5).1
      subst this
      rw [Dict.mem_keys_iff, Dict.get?_update _ _ hk]
      cases Dict.get? kwargs "strategy" with
      | some x => exact ⟨x, rfl⟩
      | none => exact ⟨w, by simp [Dict.get?_cons]⟩
    have hmem' : "strategy" ∈ Dict.keys ks' := by
      unfold withPrecision at h3
      have := Except.ok.inj (Prod.mk.inj h3).1
      rw [← this]
      split_ifs
      · exact Dict.mem_keys_set.2 (.inr hmem)
      · exact hmem
    unfold construct at h4
    rw [if_pos] at h4
    · simp at h4
    · simp [Ty.positional, hmem']

/-- **C48.** `ForecasterCanada` differs from `Forecaster` in the class of taxes and what they are made
of, and in the settings that are used if none are given. -/
theorem C48_canada (b st sc le sv wd tx hp : Val) :
    let fc := initCanada b st sc le sv wd tx hp
    fc.attrs = (init b st sc le sv wd tx hp).attrs ∧ fc.highPrecision = hp ∧
    Dict.get? fc.types "tax_treatment" = some .taxCanada ∧
    Dict.get? fc.defaults "tax_treatment" = some
      [("inflation_adjust", ("scenario", ["inflation_adjust"])),
        ("province", ("settings", ["tax_province"]))] ∧
    (∀ n, n ≠ "tax_treatment" →
      Dict.get? fc.types n = Dict.get? (init b st sc le sv wd tx hp).types n ∧
      Dict.get? fc.defaults n = Dict.get? (init b st sc le sv wd tx hp).defaults n) := by
  refine ⟨?_, rfl, rfl, rfl, fun n hn => ⟨?_, ?_⟩⟩
  · by_cases h : st = .none
    · simp only [initCanada, init, h, if_true]
      by_cases hb : b = .none <;> simp [hb]
    · simp [initCanada, init, h]
  · simp only [initCanada]
    rw [Dict.get?_update _ _ (by simp [Dict.WF])]
    simp [Dict.get?_cons, Ne.symm hn, init]
  · simp only [initCanada]
    rw [Dict.get?_update _ _ (by simp [Dict.WF])]
    simp [Dict.get?_cons, Ne.symm hn, init]

/-! ### C74: conversion of text -/

/-- **C74.** What `get_param` does with an assigned value: anything but text is returned as it is,
and so is text that is not a number; text for a whole number is returned as an integer; other
numbers are converted to high precision, if that is in use - from the text itself if possible -,
and to floats otherwise. -/
theorem C74_conversion (E : Env) (fuel : ℕ) {s : St} {name : String} {v : Val}
    (h : Dict.get? s.fc.attrs name = some v) (hv : v ≠ .none) :
    ((∀ t, v ≠ .str t) → getParam E fuel name s = (.ok v, s)) ∧
    (∀ t, v = .str t → E.float t = none → getParam E fuel name s = (.ok v, s)) ∧
    (∀ t n, v = .str t → E.float t = some (.fin ((n : ℤ) : ℚ)) →
      getParam E fuel name s = (.ok (.int n), s)) ∧
    (∀ t q, v = .str t → E.float t = some (.fin q) → (∀ n : ℤ, q ≠ n) →
      (s.fc.highPrecision = .none → getParam E fuel name s = (.ok (.float (.fin q)), s)) ∧
      (s.fc.highPrecision ≠ .none →
        (∀ w, E.high v = .ok w → getParam E fuel name s = (.ok w, s)) ∧
        (∀ e, E.high v = .error e →
          getParam E fuel name s = (E.high (.float (.fin q)), s)))) := by
  have key : getParam E fuel name s = (convert E s.fc.highPrecision v, s) := by
    unfold getParam
    rw [bind_apply]
    simp only [selfAttr, h]
    rw [bind_apply]
    simp only [orDefault, if_neg hv]
    rfl
  rw [key]
  refine ⟨fun ht => ?_, ?_, ?_, ?_⟩
  · cases v <;> simp_all [convert]
  · rintro t rfl hf
    simp [convert, hf]
  · rintro t n rfl hf
    have : toInt (.fin (n : ℚ)) = .ok n := by simp [toInt]
    simp [convert, hf, this]
  · rintro t q rfl hf hq
    have hi : ∃ n, toInt (.fin q) = .ok n := ⟨_, rfl⟩
    obtain ⟨n, hn⟩ := hi
    have hne : (q = (n : ℚ)) = False := by simp only [eq_iff_iff, iff_false]; exact hq n
    refine ⟨fun h0 => ?_, fun h0 => ⟨fun w hw => ?_, fun e he => ?_⟩⟩
    · simp [convert, hf, hn, hne, h0]
    · simp [convert, hf, hn, hne, h0, hw]
    · simp [convert, hf, hn, hne, h0, he]

/-- **C74, refuted.** Text that Python takes for an infinite number or for "not a number" is not
returned as it is, nor converted: `OverflowError` or `ValueError`. -/
theorem C74_infinite_refuted (E : Env) (fuel : ℕ) {s : St} {name t : String}
    (h : Dict.get? s.fc.attrs name = some (.str t)) :
    (∀ neg, E.float t = some (.inf neg) →
      getParam E fuel name s = (.error .overflowError, s)) ∧
    (E.float t = some .nan → getParam E fuel name s = (.error .valueError, s)) := by
  have key : getParam E fuel name s = (convert E s.fc.highPrecision (.str t), s) := by
    unfold getParam
    rw [bind_apply]
    simp only [selfAttr, h]
    rw [bind_apply]
    simp [orDefault, converted]
  rw [key]
  exact ⟨fun neg hf => by simp [convert, hf, toInt], fun hf => by simp [convert, hf, toInt]⟩

/-- **C74, refuted.** Integers are not always converted exactly, not even with high precision: they
go through floats. -/
theorem C74_large_integers_refuted (E : Env) (fuel : ℕ) {s : St} {name : String}
    (h : Dict.get? s.fc.attrs name = some (.str "9007199254740993"))
    (hf : E.float "9007199254740993" = some (.fin 9007199254740992)) :
    getParam E fuel name s = (.ok (.int 9007199254740992), s) :=
  (C74_conversion E fuel h (by simp)).2.2.1 _ _ rfl (by rw [hf]; norm_num)

/-! ### Examples -/

/-- Every attribute of every object is its own name; `"2018"`, `"0.5"` and `"inf"` are numbers. -/
def exEnv : Env where
  getattr v n := match v with
    | .none => .error .attributeError
    | _ => .ok (.str n)
  construct _ _ _ := .ok ()
  float s := if s = "2018" then some (.fin 2018) else if s = "0.5" then some (.fin (1 / 2))
    else if s = "inf" then some (.inf false) else none
  high v := .ok v

/-- A forecaster with nothing but settings. -/
def exSt : St := ⟨init .none (.given 0) .none .none .none .none .none .none, [], []⟩

/-- A forecaster with a given scenario. -/
def exSt' : St := ⟨init .none (.given 0) (.given 1) .none .none .none .none .none, [], []⟩

/-- A run without anything given builds a scenario and what depends on it: five objects. -/
example : ∃ r s', run exEnv 3 (.given 5) (.given 6) (.given 7) exSt = (.ok r, s') ∧
    r.scenario = .obj 0 ∧ r.livingExpensesStrategy = .obj 1 ∧ r.taxTreatment = .obj 4 ∧
    s'.heap.length = 5 := ⟨_, _, rfl, rfl, rfl, rfl, rfl⟩

/-- A given scenario is used. -/
example : ∃ r s', run exEnv 3 (.given 5) (.given 6) (.given 7) exSt' = (.ok r, s') ∧
    r.scenario = .given 1 ∧ r.livingExpensesStrategy = .obj 0 ∧ r.taxTreatment = .obj 3 ∧
    s'.heap.length = 4 := ⟨_, _, rfl, rfl, rfl, rfl, rfl⟩

/-- Explicit arguments override the defaults; the scenario is built along the way. -/
example : ∃ s', ownMemo (buildParam exEnv 3 "tax_treatment" [] none [("credit_rate", .int 7)]) exSt =
    (.ok (.obj 1), s') ∧ (s'.heap[1]?.map fun o => Dict.get? o.kwargs "credit_rate") =
      some (some (.int 7)) ∧
    (s'.heap[1]?.map fun o => Dict.get? o.kwargs "inflation_adjust") =
      some (some (.str "inflation_adjust")) := ⟨_, rfl, rfl, rfl⟩

/-- Requests that share a memo. -/
example : ∃ s', requests exEnv 3 ["tax_treatment", "scenario", "tax_treatment"] exSt =
    (.ok [.obj 1, .obj 0, .obj 1], s') ∧ s'.heap.length = 2 := ⟨_, rfl, rfl⟩

/-- `set_param`. -/
example : ∃ s', setParam exEnv 3 "scenario" [] none [("num_years", .int 5)] exSt = (.ok (), s') ∧
    Dict.get? s'.fc.attrs "scenario" = some (.obj 0) := ⟨_, rfl, rfl⟩

/-- Text. -/
example : getParam exEnv 0 "scenario" ⟨init .none (.given 0) (.str "2018") .none .none .none .none
    .none, [], []⟩ = (.ok (.int 2018), ⟨init .none (.given 0) (.str "2018") .none .none .none .none
    .none, [], []⟩) :=
  (C74_conversion exEnv 0 rfl (by simp)).2.2.1 _ _ rfl (by simp [exEnv])
example : (getParam exEnv 0 "scenario" ⟨init .none (.given 0) (.str "inf") .none .none .none .none
    .none, [], []⟩).1 = .error .overflowError := by rfl

end Forecaster.Builder
