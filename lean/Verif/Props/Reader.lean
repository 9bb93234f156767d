import Verif.Model.Reader
import Verif.Lemmas.Dict

/-!
# Properties of `forecaster/value_reader.py` (C46, C57, C58)
-/

set_option linter.unusedSectionVars false

namespace Forecaster.Reader

open Forecaster

variable {N : Type} [DecidableEq N]

/-! ## Specification -/

/-- A step into a tree: an index of a list or a key of a dict. -/
inductive Step (N : Type)
  | idx (i : ℕ)
  | key (k : Key N)

/-- The value found by following a path (`values[k₁][k₂]...`). -/
def at_ : Val N → List (Step N) → Option (Val N)
  | v, [] => some v
  | .list l, .idx i :: p => l[i]?.bind fun v => at_ v p
  | .dict l, .key k :: p => (Dict.get? l k).bind fun v => at_ v p
  | _, _ => none

/-- The path under which a value is found after the conversion: keys are converted. -/
def StepConverted (cls : String → StrClass N) : Step N → Step N → Prop
  | .idx i, .idx j => i = j
  | .key k, .key k' => convKey cls k = .ok k'
  | _, _ => False

mutual
/-- No dict in the tree has two keys that convert to the same key (such as `"1"` and `"1.0"`). -/
def NoClash (cls : String → StrClass N) : Val N → Prop
  | .dict l => (l.map fun kv => convKey cls kv.1).Nodup ∧ NoClashItems cls l
  | .list l => NoClashList cls l
  | _ => True
def NoClashItems (cls : String → StrClass N) : List (Key N × Val N) → Prop
  | [] => True
  | (_, v) :: l => NoClash cls v ∧ NoClashItems cls l
def NoClashList (cls : String → StrClass N) : List (Val N) → Prop
  | [] => True
  | v :: l => NoClash cls v ∧ NoClashList cls l
end

mutual
/-- The dicts in the tree have distinct keys, as all dicts have. -/
def Real : Val N → Prop
  | .dict l => Dict.WF l ∧ RealItems l
  | .list l => RealList l
  | _ => True
def RealItems : List (Key N × Val N) → Prop
  | [] => True
  | (_, v) :: l => Real v ∧ RealItems l
def RealList : List (Val N) → Prop
  | [] => True
  | v :: l => Real v ∧ RealList l
end

mutual
/-- A tree without number-like strings. -/
def Plain (cls : String → StrClass N) : Val N → Prop
  | .dict l => PlainItems cls l
  | .list l => PlainList cls l
  | .str s => cls s = .text
  | _ => True
def PlainItems (cls : String → StrClass N) : List (Key N × Val N) → Prop
  | [] => True
  | (k, v) :: l => (∀ s, k = .str s → cls s = .text) ∧ Plain cls v ∧ PlainItems cls l
def PlainList (cls : String → StrClass N) : List (Val N) → Prop
  | [] => True
  | v :: l => Plain cls v ∧ PlainList cls l
end

mutual
/-- Every number in the tree that is written as a string is read back as the same number. -/
def Faithful (cls : String → StrClass N) (f : Format N) : Val N → Prop
  | .dict l => FaithfulItems cls f l
  | .list l => FaithfulList cls f l
  | .num x => f.highPrecision = true → cls (f.showNum x) = .num (.ok x)
  | _ => True
def FaithfulItems (cls : String → StrClass N) (f : Format N) : List (Key N × Val N) → Prop
  | [] => True
  | (k, v) :: l => (∀ n, k = .int n → cls (f.showInt n) = .int n) ∧
      (∀ x, k = .num x → cls (f.showNum x) = .num (.ok x)) ∧ Faithful cls f v ∧ FaithfulItems cls f l
def FaithfulList (cls : String → StrClass N) (f : Format N) : List (Val N) → Prop
  | [] => True
  | v :: l => Faithful cls f v ∧ FaithfulList cls f l
end

mutual
/-- A tree that can be in a file: the keys of dicts are strings. With high precision, the only
numbers written as such are integers: others would be read as floats, with less precision. -/
def InFile (hp : Bool) : Val N → Prop
  | .dict l => InFileItems hp l
  | .list l => InFileList hp l
  | .num _ => hp = false
  | _ => True
def InFileItems (hp : Bool) : List (Key N × Val N) → Prop
  | [] => True
  | (k, v) :: l => (∃ s, k = .str s) ∧ InFile hp v ∧ InFileItems hp l
def InFileList (hp : Bool) : List (Val N) → Prop
  | [] => True
  | v :: l => InFile hp v ∧ InFileList hp l
end

/-! ## Helpers -/

omit [DecidableEq N] in
theorem Val.ind {P : Val N → Prop} (hd : ∀ l : List (Key N × Val N), (∀ kv ∈ l, P kv.2) → P (.dict l))
    (hl : ∀ l : List (Val N), (∀ v ∈ l, P v) → P (.list l)) (hs : ∀ s, P (.str s)) (hi : ∀ n, P (.int n))
    (hn : ∀ x, P (.num x)) (hb : ∀ b, P (.bool b)) (h0 : P .null) : ∀ v, P v
  | .dict l => hd l fun kv h => by
      have : sizeOf kv.2 < sizeOf l := by
        have := List.sizeOf_lt_of_mem h
        cases kv
        simp at this ⊢
        omega
      exact Val.ind hd hl hs hi hn hb h0 kv.2
  | .list l => hl l fun v h => by
      have := List.sizeOf_lt_of_mem h
      exact Val.ind hd hl hs hi hn hb h0 v
  | .str s => hs s
  | .int n => hi n
  | .num x => hn x
  | .bool b => hb b
  | .null => h0
termination_by v => sizeOf v

theorem convItems_iff (cls : String → StrClass N) (l l' : List (Key N × Val N)) :
    convItems cls l = .ok l' ↔
      List.Forall₂ (fun a b => convKey cls a.1 = .ok b.1 ∧ conv cls a.2 = .ok b.2) l l' := by
  induction l generalizing l' with
  | nil => simp [convItems, eq_comm]
  | cons a l ih =>
    obtain ⟨k, v⟩ := a
    simp only [convItems]
    cases hk : convKey cls k with
    | error e => simp [List.forall₂_cons_left_iff, hk]
    | ok k' =>
      cases hv : conv cls v with
      | error e => simp [List.forall₂_cons_left_iff, hv]
      | ok v' =>
        cases hl : convItems cls l with
        | error e =>
          simp only [ok_bind, error_bind, reduceCtorEq, List.forall₂_cons_left_iff, false_iff]
          rintro ⟨b, u, -, hu, -⟩
          rw [(ih u).mpr hu] at hl
          cases hl
        | ok m =>
          simp only [ok_bind, Except.ok.injEq, List.forall₂_cons_left_iff]
          constructor
          · rintro rfl
            exact ⟨(k', v'), m, ⟨hk, hv⟩, (ih m).mp hl, rfl⟩
          · rintro ⟨b, u, ⟨h1, h2⟩, hu, rfl⟩
            have hb : (k', v') = b := by
              rw [hk] at h1
              rw [hv] at h2
              cases h1; cases h2; rfl
            have := (ih u).mpr hu
            rw [hl] at this
            cases this
            rw [hb]

theorem convList_iff (cls : String → StrClass N) (l l' : List (Val N)) :
    convList cls l = .ok l' ↔ List.Forall₂ (fun a b => conv cls a = .ok b) l l' := by
  induction l generalizing l' with
  | nil => simp [convList, eq_comm]
  | cons v l ih =>
    simp only [convList]
    cases hv : conv cls v with
    | error e => simp [List.forall₂_cons_left_iff, hv]
    | ok v' =>
      cases hl : convList cls l with
      | error e =>
        simp only [ok_bind, error_bind, reduceCtorEq, List.forall₂_cons_left_iff, false_iff]
        rintro ⟨b, u, -, hu, -⟩
        rw [(ih u).mpr hu] at hl
        cases hl
      | ok m =>
        simp only [ok_bind, Except.ok.injEq, List.forall₂_cons_left_iff]
        constructor
        · rintro rfl
          exact ⟨v', m, hv, (ih m).mp hl, rfl⟩
        · rintro ⟨b, u, h1, hu, rfl⟩
          rw [hv] at h1
          cases h1
          have := (ih u).mpr hu
          rw [hl] at this
          cases this
          rfl

theorem conv_dict_ok {cls : String → StrClass N} {l : List (Key N × Val N)} {w : Val N}
    (h : conv cls (.dict l) = .ok w) :
    ∃ l', w = .dict (Dict.update [] l') ∧
      List.Forall₂ (fun a b => convKey cls a.1 = .ok b.1 ∧ conv cls a.2 = .ok b.2) l l' := by
  simp only [conv] at h
  cases hl : convItems cls l with
  | error e => rw [hl] at h; cases h
  | ok l' =>
    rw [hl] at h
    cases h
    exact ⟨l', rfl, (convItems_iff cls l l').mp hl⟩

theorem conv_list_ok {cls : String → StrClass N} {l : List (Val N)} {w : Val N}
    (h : conv cls (.list l) = .ok w) :
    ∃ l', w = .list l' ∧ List.Forall₂ (fun a b => conv cls a = .ok b) l l' := by
  simp only [conv] at h
  cases hl : convList cls l with
  | error e => rw [hl] at h; cases h
  | ok l' =>
    rw [hl] at h
    cases h
    exact ⟨l', rfl, (convList_iff cls l l').mp hl⟩

theorem conv_str_atom {cls : String → StrClass N} {s : String} {w : Val N} (h : convStr cls s = .ok w) :
    (w = .str s ∧ cls s = .text) ∨ (∃ n, w = .int n) ∨ (∃ x, w = .num x) := by
  unfold convStr at h
  split at h
  · left; cases h; exact ⟨rfl, by assumption⟩
  · right; left; cases h; exact ⟨_, rfl⟩
  · right; right; cases h; exact ⟨_, rfl⟩
  · cases h

theorem mem_foldl_set (e : List (Key N × Val N)) (d : List (Key N × Val N)) (a : Key N × Val N)
    (h : a ∈ Dict.update d e) : a ∈ d ∨ a ∈ e := by
  induction e generalizing d with
  | nil => exact Or.inl h
  | cons b e ih =>
    rcases ih (Dict.set d b.1 b.2) h with h | h
    · have aux : ∀ d : List (Key N × Val N), a ∈ Dict.set d b.1 b.2 → a ∈ d ∨ a = b := by
        intro d
        induction d with
        | nil =>
          intro h
          right
          simpa [Dict.set] using h
        | cons c d ihd =>
          intro h
          simp only [Dict.set] at h
          split at h
          · rename_i hc
            rcases List.mem_cons.mp h with h | h
            · right; rw [h, hc]
            · left; simp [h]
          · rcases List.mem_cons.mp h with h | h
            · left; simp [h]
            · rcases ihd h with h | h
              · left; simp [h]
              · right; exact h
      rcases aux d h with h | h
      · exact Or.inl h
      · right; simp [h]
    · right; simp [h]

theorem forall₂_self_of_forall {α β : Type} {R : α → α → Prop} (l : List α) (h : ∀ a ∈ l, R a a) :
    List.Forall₂ R l l := by
  induction l with
  | nil => exact .nil
  | cons a l ih => exact .cons (h a (by simp)) (ih fun b hb => h b (by simp [hb]))

theorem conv_dict_self {cls : String → StrClass N} {l : List (Key N × Val N)} (hwf : Dict.WF l)
    (h : ∀ a ∈ l, convKey cls a.1 = .ok a.1 ∧ conv cls a.2 = .ok a.2) :
    conv cls (.dict l) = .ok (.dict l) := by
  simp only [conv]
  rw [(convItems_iff cls l l).mpr (forall₂_self_of_forall (β := Unit) l h)]
  simp only [ok_bind]
  rw [Dict.update_nil_left hwf]

theorem convKey_idem {cls : String → StrClass N} {k k' : Key N} (h : convKey cls k = .ok k') :
    convKey cls k' = .ok k' := by
  cases k with
  | str s =>
    simp only [convKey] at h
    split at h
    · cases h; simp only [convKey]; rename_i hc; rw [hc]
    · cases h; rfl
    · cases h; rfl
    · cases h
  | int n => cases h; rfl
  | num x => cases h; rfl

theorem forall₂_right {α β : Type} {R : α → β → Prop} {l : List α} {l' : List β}
    (h : List.Forall₂ R l l') {b : β} (hb : b ∈ l') : ∃ a ∈ l, R a b := by
  induction h with
  | nil => simp at hb
  | cons hab _ ih =>
    rcases List.mem_cons.mp hb with rfl | hb
    · exact ⟨_, by simp, hab⟩
    · obtain ⟨a, ha, hr⟩ := ih hb
      exact ⟨a, by simp [ha], hr⟩

theorem noClash_wf {cls : String → StrClass N} {l l' : List (Key N × Val N)}
    (hf : List.Forall₂ (fun a b => convKey cls a.1 = .ok b.1 ∧ conv cls a.2 = .ok b.2) l l')
    (h : (l.map fun kv => convKey cls kv.1).Nodup) : Dict.WF l' := by
  have : (l.map fun kv => convKey cls kv.1) = (Dict.keys l').map Except.ok := by
    induction hf with
    | nil => rfl
    | cons hab _ ih =>
      simp only [List.map_cons, List.nodup_cons, Dict.keys_cons] at h ⊢
      rw [hab.1, ih h.2]
  rw [this] at h
  exact h.of_map

theorem forall₂_getElem? {α β : Type} {R : α → β → Prop} {l : List α} {l' : List β}
    (h : List.Forall₂ R l l') (i : ℕ) :
    (l[i]? = none ∧ l'[i]? = none) ∨ ∃ a b, l[i]? = some a ∧ l'[i]? = some b ∧ R a b := by
  induction h generalizing i with
  | nil => left; simp
  | cons hab _ ih =>
    cases i with
    | zero => right; exact ⟨_, _, rfl, rfl, hab⟩
    | succ i => simpa using ih i

theorem noClashItems_mem {cls : String → StrClass N} {l : List (Key N × Val N)}
    (h : NoClashItems cls l) {a : Key N × Val N} (ha : a ∈ l) : NoClash cls a.2 := by
  induction l with
  | nil => simp at ha
  | cons b l ih =>
    obtain ⟨k, v⟩ := b
    simp only [NoClashItems] at h
    rcases List.mem_cons.mp ha with rfl | ha
    · exact h.1
    · exact ih h.2 ha

theorem noClashList_mem {cls : String → StrClass N} {l : List (Val N)}
    (h : NoClashList cls l) {a : Val N} (ha : a ∈ l) : NoClash cls a := by
  induction l with
  | nil => simp at ha
  | cons b l ih =>
    simp only [NoClashList] at h
    rcases List.mem_cons.mp ha with rfl | ha
    · exact h.1
    · exact ih h.2 ha

theorem realItems_mem {l : List (Key N × Val N)} (h : RealItems l) {a : Key N × Val N} (ha : a ∈ l) :
    Real a.2 := by
  induction l with
  | nil => simp at ha
  | cons b l ih =>
    obtain ⟨k, v⟩ := b
    simp only [RealItems] at h
    rcases List.mem_cons.mp ha with rfl | ha
    · exact h.1
    · exact ih h.2 ha

theorem realList_mem {l : List (Val N)} (h : RealList l) {a : Val N} (ha : a ∈ l) : Real a := by
  induction l with
  | nil => simp at ha
  | cons b l ih =>
    simp only [RealList] at h
    rcases List.mem_cons.mp ha with rfl | ha
    · exact h.1
    · exact ih h.2 ha

theorem plainItems_mem {cls : String → StrClass N} {l : List (Key N × Val N)} (h : PlainItems cls l)
    {a : Key N × Val N} (ha : a ∈ l) : (∀ s, a.1 = .str s → cls s = .text) ∧ Plain cls a.2 := by
  induction l with
  | nil => simp at ha
  | cons b l ih =>
    obtain ⟨k, v⟩ := b
    simp only [PlainItems] at h
    rcases List.mem_cons.mp ha with rfl | ha
    · exact ⟨h.1, h.2.1⟩
    · exact ih h.2.2 ha

theorem plainList_mem {cls : String → StrClass N} {l : List (Val N)} (h : PlainList cls l) {a : Val N}
    (ha : a ∈ l) : Plain cls a := by
  induction l with
  | nil => simp at ha
  | cons b l ih =>
    simp only [PlainList] at h
    rcases List.mem_cons.mp ha with rfl | ha
    · exact h.1
    · exact ih h.2 ha

/-! ## C46 -/

/-- **C46.** Every value of the tree is found, itself converted, under the converted path: nothing
is moved or dropped (unless two keys of a dict convert to the same number). -/
theorem C46_every_value_is_kept (cls : String → StrClass N) (v w : Val N) (h : conv cls v = .ok w)
    (hnc : NoClash cls v) (p : List (Step N)) (x : Val N) (hx : at_ v p = some x) :
    ∃ p' y, List.Forall₂ (StepConverted cls) p p' ∧ conv cls x = .ok y ∧ at_ w p' = some y := by
  induction p generalizing v w with
  | nil =>
    simp only [at_] at hx
    cases hx
    exact ⟨[], w, .nil, h, by simp [at_]⟩
  | cons s p ih =>
    cases v with
    | dict l =>
      cases s with
      | idx i => simp [at_] at hx
      | key k =>
        simp only [at_, Option.bind_eq_some_iff] at hx
        obtain ⟨u, hu, hx⟩ := hx
        obtain ⟨l', rfl, hf⟩ := conv_dict_ok h
        simp only [NoClash] at hnc
        have hwf := noClash_wf hf hnc.1
        have hmem := Dict.mem_of_get? hu
        obtain ⟨b, hb, h1, h2⟩ : ∃ b ∈ l', convKey cls k = .ok b.1 ∧ conv cls u = .ok b.2 := by
          clear hx h hnc hwf hu
          induction hf with
          | nil => simp at hmem
          | cons hab _ ih' =>
            rcases List.mem_cons.mp hmem with rfl | hm
            · exact ⟨_, by simp, hab⟩
            · obtain ⟨b, hb, hr⟩ := ih' hm
              exact ⟨b, by simp [hb], hr⟩
        obtain ⟨p', y, hp, hy, hat⟩ := ih u b.2 h2 (noClashItems_mem hnc.2 hmem) hx
        refine ⟨.key b.1 :: p', y, .cons h1 hp, hy, ?_⟩
        simp only [at_]
        rw [Dict.update_nil_left hwf, Dict.get?_of_mem hwf (v := b.2) hb]
        exact hat
    | list l =>
      cases s with
      | key k => simp [at_] at hx
      | idx i =>
        simp only [at_, Option.bind_eq_some_iff] at hx
        obtain ⟨u, hu, hx⟩ := hx
        obtain ⟨l', rfl, hf⟩ := conv_list_ok h
        simp only [NoClash] at hnc
        rcases forall₂_getElem? hf i with ⟨h0, -⟩ | ⟨a, b, ha, hb, hab⟩
        · rw [h0] at hu; cases hu
        · rw [ha] at hu
          cases hu
          obtain ⟨p', y, hp, hy, hat⟩ := ih _ b hab (noClashList_mem hnc (List.mem_of_getElem? ha)) hx
          refine ⟨.idx i :: p', y, .cons rfl hp, hy, ?_⟩
          simp only [at_]
          rw [hb]
          exact hat
    | str _ => simp [at_] at hx
    | int _ => simp [at_] at hx
    | num _ => simp [at_] at hx
    | bool _ => simp [at_] at hx
    | null => simp [at_] at hx

/-- **C46.** And nothing is invented: every value found in the result is the conversion of a value
found under a corresponding path (also when keys clash). -/
theorem C46_nothing_is_invented (cls : String → StrClass N) (v w : Val N) (h : conv cls v = .ok w)
    (hr : Real v) (p' : List (Step N)) (y : Val N) (hy : at_ w p' = some y) :
    ∃ p x, List.Forall₂ (StepConverted cls) p p' ∧ conv cls x = .ok y ∧ at_ v p = some x := by
  induction p' generalizing v w with
  | nil =>
    simp only [at_] at hy
    cases hy
    exact ⟨[], v, .nil, h, by simp [at_]⟩
  | cons s p' ih =>
    cases v with
    | dict l =>
      obtain ⟨l', rfl, hf⟩ := conv_dict_ok h
      cases s with
      | idx i => simp [at_] at hy
      | key k =>
        simp only [at_, Option.bind_eq_some_iff] at hy
        obtain ⟨u, hu, hy⟩ := hy
        have hmem := Dict.mem_of_get? hu
        rcases mem_foldl_set l' [] _ hmem with h0 | hmem
        · simp at h0
        obtain ⟨a, ha, h1, h2⟩ := forall₂_right hf hmem
        simp only [Real] at hr
        obtain ⟨p, x, hp, hx, hat⟩ := ih a.2 u h2 (realItems_mem hr.2 ha) hy
        refine ⟨.key a.1 :: p, x, .cons h1 hp, hx, ?_⟩
        simp only [at_]
        rw [Dict.get?_of_mem hr.1 (v := a.2) ha]
        exact hat
    | list l =>
      obtain ⟨l', rfl, hf⟩ := conv_list_ok h
      cases s with
      | key k => simp [at_] at hy
      | idx i =>
        simp only [at_, Option.bind_eq_some_iff] at hy
        obtain ⟨u, hu, hy⟩ := hy
        rcases forall₂_getElem? hf i with ⟨-, h0⟩ | ⟨a, b, ha, hb, hab⟩
        · rw [h0] at hu; cases hu
        · rw [hb] at hu
          cases hu
          simp only [Real] at hr
          obtain ⟨p, x, hp, hx, hat⟩ := ih a _ hab (realList_mem hr (List.mem_of_getElem? ha)) hy
          refine ⟨.idx i :: p, x, .cons rfl hp, hx, ?_⟩
          simp only [at_]
          rw [ha]
          exact hat
    | str t =>
      rcases conv_str_atom h with ⟨rfl, -⟩ | ⟨n, rfl⟩ | ⟨x, rfl⟩ <;> simp [at_] at hy
    | int _ => cases h; simp [at_] at hy
    | num _ => cases h; simp [at_] at hy
    | bool _ => cases h; simp [at_] at hy
    | null => cases h; simp [at_] at hy

/-- **C46.** Lists keep their length, and so do dicts whose keys do not clash. -/
theorem C46_lengths (cls : String → StrClass N) :
    (∀ l w, conv cls (.list l) = .ok w → ∃ l', w = .list l' ∧ l'.length = l.length) ∧
    (∀ l w, conv cls (.dict l) = .ok w → NoClash cls (.dict l) →
      ∃ l', w = .dict l' ∧ l'.length = l.length) := by
  refine ⟨fun l w h => ?_, fun l w h hnc => ?_⟩
  · obtain ⟨l', rfl, hf⟩ := conv_list_ok h
    exact ⟨l', rfl, hf.length_eq.symm⟩
  · obtain ⟨l', rfl, hf⟩ := conv_dict_ok h
    simp only [NoClash] at hnc
    exact ⟨l', by rw [Dict.update_nil_left (noClash_wf hf hnc.1)], hf.length_eq.symm⟩

/-- **C46.** The conversion is idempotent. -/
theorem C46_idempotent (cls : String → StrClass N) (v w : Val N) (h : conv cls v = .ok w) :
    conv cls w = .ok w := by
  induction v using Val.ind generalizing w with
  | hd l ih =>
    obtain ⟨l', rfl, hf⟩ := conv_dict_ok h
    refine conv_dict_self (Dict.wf_update (by simp) l') fun a ha => ?_
    rcases mem_foldl_set l' [] a ha with h0 | ha
    · simp at h0
    · obtain ⟨b, hb, h1, h2⟩ := forall₂_right hf ha
      exact ⟨convKey_idem h1, ih b hb _ h2⟩
  | hl l ih =>
    obtain ⟨l', rfl, hf⟩ := conv_list_ok h
    simp only [conv]
    rw [(convList_iff cls l' l').mpr (forall₂_self_of_forall (β := Unit) l' fun b hb => ?_)]
    · rfl
    · obtain ⟨a, ha, hab⟩ := forall₂_right hf hb
      exact ih a ha b hab
  | hs s =>
    rcases conv_str_atom h with ⟨rfl, hc⟩ | ⟨n, rfl⟩ | ⟨x, rfl⟩
    · simp [conv, convStr, hc]
    · simp [conv]
    · simp [conv]
  | hi n => cases h; simp [conv]
  | hn x => cases h; simp [conv]
  | hb b => cases h; simp [conv]
  | h0 => cases h; simp [conv]

/-- **C46.** A tree without number-like strings comes back unchanged. -/
theorem C46_text_is_unchanged (cls : String → StrClass N) (v : Val N) (hr : Real v)
    (hp : Plain cls v) : conv cls v = .ok v := by
  induction v using Val.ind with
  | hd l ih =>
    simp only [Real] at hr
    simp only [Plain] at hp
    refine conv_dict_self hr.1 fun a ha => ?_
    obtain ⟨h1, h2⟩ := plainItems_mem hp ha
    refine ⟨?_, ih a ha (realItems_mem hr.2 ha) h2⟩
    cases hk : a.1 with
    | str s => simp [convKey, h1 s hk]
    | int n => rfl
    | num x => rfl
  | hl l ih =>
    simp only [Real] at hr
    simp only [Plain] at hp
    simp only [conv]
    rw [(convList_iff cls l l).mpr (forall₂_self_of_forall (β := Unit) l fun b hb =>
      ih b hb (realList_mem hr hb) (plainList_mem hp hb))]
    rfl
  | hs s =>
    simp only [Plain] at hp
    simp [conv, convStr, hp]
  | hi n => simp [conv]
  | hn x => simp [conv]
  | hb b => simp [conv]
  | h0 => simp [conv]

/-- **C46.** (The defect.) Two keys that denote the same number are silently merged: the value of
the first is lost. -/
theorem C46_clashing_keys_lose_a_value (cls : String → StrClass N) (s t : String) (n : ℤ)
    (hs : cls s = .int n) (ht : cls t = .int n) (a b : ℤ) :
    conv cls (.dict [(.str s, .int a), (.str t, .int b)]) = .ok (.dict [(.int n, .int b)]) := by
  simp [conv, convItems, convKey, hs, ht, Dict.update, Dict.set]

/-! ## C57: writing and reading back -/

theorem emitItems_iff (f : Format N) (l l' : List (Key N × Val N)) :
    emitItems f l = .ok l' →
      List.Forall₂ (fun a b => emitKey f a.1 = .ok b.1 ∧ emit f a.2 = .ok b.2) l l' := by
  induction l generalizing l' with
  | nil => intro h; cases h; exact .nil
  | cons a l ih =>
    obtain ⟨k, v⟩ := a
    simp only [emitItems]
    intro h
    cases hk : emitKey f k with
    | error e => rw [hk] at h; cases h
    | ok k' =>
      cases hv : emit f v with
      | error e => rw [hk, hv] at h; cases h
      | ok v' =>
        cases hl : emitItems f l with
        | error e => rw [hk, hv, hl] at h; cases h
        | ok m =>
          rw [hk, hv, hl] at h
          cases h
          exact .cons ⟨hk, hv⟩ (ih m hl)

theorem emitList_iff (f : Format N) (l l' : List (Val N)) :
    emitList f l = .ok l' → List.Forall₂ (fun a b => emit f a = .ok b) l l' := by
  induction l generalizing l' with
  | nil => intro h; cases h; exact .nil
  | cons v l ih =>
    simp only [emitList]
    intro h
    cases hv : emit f v with
    | error e => rw [hv] at h; cases h
    | ok v' =>
      cases hl : emitList f l with
      | error e => rw [hv, hl] at h; cases h
      | ok m =>
        rw [hv, hl] at h
        cases h
        exact .cons hv (ih m hl)

theorem faithfulItems_mem {cls : String → StrClass N} {f : Format N} {l : List (Key N × Val N)}
    (h : FaithfulItems cls f l) {a : Key N × Val N} (ha : a ∈ l) :
    (∀ n, a.1 = .int n → cls (f.showInt n) = .int n) ∧
      (∀ x, a.1 = .num x → cls (f.showNum x) = .num (.ok x)) ∧ Faithful cls f a.2 := by
  induction l with
  | nil => simp at ha
  | cons b l ih =>
    obtain ⟨k, v⟩ := b
    simp only [FaithfulItems] at h
    rcases List.mem_cons.mp ha with rfl | ha
    · exact ⟨h.1, h.2.1, h.2.2.1⟩
    · exact ih h.2.2.2 ha

theorem faithfulList_mem {cls : String → StrClass N} {f : Format N} {l : List (Val N)}
    (h : FaithfulList cls f l) {a : Val N} (ha : a ∈ l) : Faithful cls f a := by
  induction l with
  | nil => simp at ha
  | cons b l ih =>
    simp only [FaithfulList] at h
    rcases List.mem_cons.mp ha with rfl | ha
    · exact h.1
    · exact ih h.2 ha

theorem forall₂_flip_mem {α : Type} {R S : α → α → Prop} {l l' : List α} (h : List.Forall₂ R l l')
    (hrs : ∀ a ∈ l, ∀ b, R a b → S b a) : List.Forall₂ S l' l := by
  induction h with
  | nil => exact .nil
  | cons hab _ ih =>
    exact .cons (hrs _ (by simp) _ hab) (ih fun a ha b hb => hrs a (by simp [ha]) b hb)

/-- **C57.** Writing values to a file and reading them back gives the same values, in either number
mode, provided the values contain no number-like strings, and each number that has to be written as
a string (integer keys; high-precision numbers) is read back as itself. -/
theorem C57_round_trip (cls : String → StrClass N) (f : Format N) (v j : Val N) (hr : Real v)
    (hp : Plain cls v) (hf : Faithful cls f v) (h : emit f v = .ok j) : conv cls j = .ok v := by
  induction v using Val.ind generalizing j with
  | hd l ih =>
    simp only [Real] at hr
    simp only [Plain] at hp
    simp only [Faithful] at hf
    simp only [emit] at h
    split at h
    · cases hl : emitItems f l with
      | error e => rw [hl] at h; cases h
      | ok l' =>
        rw [hl] at h
        cases h
        have h2 := emitItems_iff f l l' hl
        simp only [conv]
        rw [(convItems_iff cls l' l).mpr (forall₂_flip_mem h2 ?_)]
        · simp only [ok_bind]
          rw [Dict.update_nil_left hr.1]
        · rintro a ha b ⟨hk, hv⟩
          obtain ⟨p1, p2⟩ := plainItems_mem hp ha
          obtain ⟨f1, f2, f3⟩ := faithfulItems_mem hf ha
          refine ⟨?_, ih a ha b.2 (realItems_mem hr.2 ha) p2 f3 hv⟩
          cases hak : a.1 with
          | str s =>
            rw [hak] at hk
            simp only [emitKey, Except.ok.injEq] at hk
            rw [← hk]
            simp [convKey, p1 s hak]
          | int n =>
            rw [hak] at hk
            simp only [emitKey, Except.ok.injEq] at hk
            rw [← hk]
            simp [convKey, f1 n hak]
          | num x =>
            rw [hak] at hk
            simp only [emitKey] at hk
            split at hk
            · cases hk
            · simp only [Except.ok.injEq] at hk
              rw [← hk]
              simp [convKey, f2 x hak]
    · cases h
  | hl l ih =>
    simp only [Real] at hr
    simp only [Plain] at hp
    simp only [Faithful] at hf
    simp only [emit] at h
    cases hl : emitList f l with
    | error e => rw [hl] at h; cases h
    | ok l' =>
      rw [hl] at h
      cases h
      simp only [conv]
      rw [(convList_iff cls l' l).mpr (forall₂_flip_mem (emitList_iff f l l' hl) fun a ha b hb =>
        ih a ha b (realList_mem hr ha) (plainList_mem hp ha) (faithfulList_mem hf ha) hb)]
      rfl
  | hs s =>
    simp only [Plain] at hp
    cases h
    simp [conv, convStr, hp]
  | hi n => cases h; simp [conv]
  | hn x =>
    simp only [Faithful] at hf
    simp only [emit, Except.ok.injEq] at h
    subst h
    cases hh : f.highPrecision with
    | true => simp [conv, convStr, hf hh]
    | false => simp [conv]
  | hb b => cases h; simp [conv]
  | h0 => cases h; simp [conv]

/-- **C57.** What is written is a tree of the kind files hold, and high-precision numbers are in it as
text. -/
theorem C57_file_contents (f : Format N) (v j : Val N) (h : emit f v = .ok j) :
    InFile f.highPrecision j := by
  induction v using Val.ind generalizing j with
  | hd l ih =>
    simp only [emit] at h
    split at h
    · cases hl : emitItems f l with
      | error e => rw [hl] at h; cases h
      | ok l' =>
        rw [hl] at h
        cases h
        have h2 := emitItems_iff f l l' hl
        clear hl
        rename_i hsort
        clear hsort
        simp only [InFile]
        induction h2 with
        | nil => simp [InFileItems]
        | @cons a b l l' hab _ ih2 =>
          obtain ⟨k, w⟩ := b
          simp only [InFileItems]
          refine ⟨?_, ih a (by simp) w hab.2, ih2 (fun kv hkv => ih kv (by simp [hkv]))⟩
          have hk := hab.1
          cases hak : a.1 with
          | str s => rw [hak] at hk; cases hk; exact ⟨_, rfl⟩
          | int n => rw [hak] at hk; cases hk; exact ⟨_, rfl⟩
          | num x =>
            rw [hak] at hk
            simp only [emitKey] at hk
            split at hk
            · cases hk
            · cases hk; exact ⟨_, rfl⟩
    · cases h
  | hl l ih =>
    simp only [emit] at h
    cases hl : emitList f l with
    | error e => rw [hl] at h; cases h
    | ok l' =>
      rw [hl] at h
      cases h
      have h2 := emitList_iff f l l' hl
      clear hl
      simp only [InFile]
      induction h2 with
      | nil => simp [InFileList]
      | @cons a b l l' hab _ ih2 =>
        simp only [InFileList]
        exact ⟨ih a (by simp) b hab, ih2 (fun kv hkv => ih kv (by simp [hkv]))⟩
  | hs s => cases h; simp [InFile]
  | hi n => cases h; simp [InFile]
  | hn x =>
    simp only [emit, Except.ok.injEq] at h
    subst h
    cases hh : f.highPrecision <;> simp [InFile]
  | hb b => cases h; simp [InFile]
  | h0 => cases h; simp [InFile]

/-- **C57.** (The defects.) Values that were read cannot always be written: a dict with a numeric and
a text key cannot be sorted, and a high-precision number cannot be a key. -/
theorem C57_mixed_keys_cannot_be_written (f : Format N) (s : String) (n : ℤ) (a b : Val N)
    (l : List (Key N × Val N)) (hs : (.str s, a) ∈ l) (hn : (.int n, b) ∈ l) :
    emit f (.dict l) = .error .typeError := by
  have : sortable l = false := by
    unfold sortable
    rw [Bool.or_eq_false_iff]
    constructor
    · rw [List.all_eq_false]
      exact ⟨_, hn, by simp⟩
    · rw [List.all_eq_false]
      exact ⟨_, hs, by simp⟩
  simp [emit, this]

theorem C57_high_precision_keys_cannot_be_written (f : Format N) (hf : f.highPrecision = true) (x : N)
    (v : Val N) (l : List (Key N × Val N)) : emit f (.dict ((.num x, v) :: l)) = .error .typeError := by
  simp only [emit]
  split
  · simp [emitItems, emitKey, hf]
  · rfl

/-! ## C58: managed attributes of settings -/

/-- What an attribute with default `d` is when nothing has been assigned to it. -/
def unset (d : Option (Val N)) (useDefaults : Bool) : Except PyErr (Val N) :=
  match d with
  | some x => if useDefaults then .ok x else .error .keyError
  | none => .error .keyError

/-- **C58.** A value that was assigned (or read from file) is returned; otherwise the default, if
there is one and defaults are enabled; otherwise `KeyError`. Other attributes are not affected by
an assignment. -/
theorem C58_attribute_values (name name' : String) (d : Option (Val N)) (o : Obj N) (v : Val N)
    (l : List (Key N × Val N)) (ho : o.values = .dict l) :
    (∃ o', attrSet name v o = .ok o' ∧ attrGet name d o' = .ok v ∧
      (name' ≠ name → attrGet name' d o' = attrGet name' d o)) ∧
    (∀ x, Dict.get? l (.str name) = some x → attrGet name d o = .ok x) ∧
    (Key.str name ∉ Dict.keys l → attrGet name d o = unset d o.useDefaults) := by
  refine ⟨⟨{ o with values := .dict (Dict.set l (.str name) v) }, by simp [attrSet, ho], ?_, ?_⟩,
    fun x hx => ?_, fun hmem => ?_⟩
  · simp [attrGet]
  · intro hne
    have : Key.str (N := N) name ≠ .str name' := by
      intro h; injection h with h; exact hne h.symm
    simp [attrGet, ho, Dict.get?_set, this, orDefault]
  · simp [attrGet, ho, hx]
  · rw [← Dict.get?_eq_none] at hmem
    cases d <;> simp [attrGet, ho, hmem, orDefault, unset]

/-- **C58.** Settings read from a file that holds no dict: a list of which the name is an element raises
`TypeError`; otherwise the default is used as for a dict, but if there is none (or defaults are not
enabled) a `TypeError` is raised. -/
theorem C58_no_dict (name : String) (d : Option (Val N)) (o : Obj N) (l : List (Val N))
    (ho : o.values = .list l) :
    ((∃ v ∈ l, v = .str name) → attrGet name d o = .error .typeError) ∧
    ((∀ v ∈ l, v ≠ .str name) → attrGet name d o = match d, o.useDefaults with
      | some x, true => .ok x
      | _, _ => .error .typeError) := by
  refine ⟨fun h => ?_, fun h => ?_⟩
  · unfold attrGet
    rw [ho]
    simp only
    obtain ⟨v, hv, rfl⟩ := h
    split
    · rfl
    · next hh => exact absurd (List.any_eq_true.2 ⟨_, hv, by simp⟩) hh
  · unfold attrGet
    rw [ho]
    simp only
    split
    · next hh =>
      obtain ⟨v, hv, e⟩ := List.any_eq_true.1 hh
      cases v <;> simp at e
      exact absurd (by rw [e]) (h _ hv)
    · unfold orDefault
      cases d with
      | none => rfl
      | some x => cases o.useDefaults <;> rfl

/-- **C58.** Settings read from a file that holds only a text: if the attribute's name is a part of the
text (at any place, the whole text included) a `TypeError` is raised although the attribute may have a
default; otherwise the default is used as for a dict, and without one a `TypeError` is raised. A file that
holds only a number, a truth value or null never has a default: `TypeError`. -/
theorem C58_bare_text (name text : String) (d : Option (Val N)) (o : Obj N) :
    (o.values = .str text →
      ((∃ before after, text.toList = before ++ name.toList ++ after) →
        attrGet name d o = .error .typeError) ∧
      ((¬ ∃ before after, text.toList = before ++ name.toList ++ after) →
        attrGet name d o = match d, o.useDefaults with
          | some x, true => .ok x
          | _, _ => .error .typeError)) ∧
    ((∀ l, o.values ≠ .dict l) → (∀ l, o.values ≠ .list l) → (∀ s, o.values ≠ .str s) →
      attrGet name d o = .error .typeError) := by
  refine ⟨fun ho => ⟨fun h => ?_, fun h => ?_⟩, fun h1 h2 h3 => ?_⟩
  · unfold attrGet
    rw [ho]
    simp only
    obtain ⟨b, a, e⟩ := h
    have : name.toList <:+: text.toList := ⟨b, a, e.symm⟩
    rw [if_pos this]
  · unfold attrGet
    rw [ho]
    simp only
    have : ¬ name.toList <:+: text.toList := by
      rintro ⟨b, a, e⟩
      exact h ⟨b, a, e.symm⟩
    rw [if_neg this]
    unfold orDefault
    cases d with
    | none => rfl
    | some x => cases o.useDefaults <;> rfl
  · unfold attrGet
    split
    · next h => exact absurd h (h1 _)
    · next h => exact absurd h (h2 _)
    · next h => exact absurd h (h3 _)
    · rfl

/-- The text `"a year: 2018"`, attribute `year` with a default, and attribute `years` with the same. -/
example : attrGet "year" (some (.int 3)) (⟨.str "a year: 2018", true⟩ : Obj ℕ) = .error .typeError ∧
    attrGet "years" (some (.int 3)) (⟨.str "a year: 2018", true⟩ : Obj ℕ) = .ok (.int 3) :=
  ⟨((C58_bare_text "year" "a year: 2018" (some (.int 3)) ⟨.str "a year: 2018", true⟩).1 rfl).1
    ⟨"a ".toList, ": 2018".toList, by decide +kernel⟩,
    ((C58_bare_text "years" "a year: 2018" (some (.int 3)) ⟨.str "a year: 2018", true⟩).1 rfl).2
      fun ⟨b, a, e⟩ =>
        have : ("years".toList.isInfixOf_internal "a year: 2018".toList) = false := by decide +kernel
        Bool.false_ne_true (this.symm.trans (List.isInfixOf_internal_iff_isInfix.2 ⟨b, a, e.symm⟩))⟩

/-- **C58.** Settings read from a file that holds a list: if the attribute's name is an element of the list a
`TypeError` is raised although the attribute may have a default; otherwise the default is used as for a
dict, and without one a `TypeError` is raised. -/
theorem C58_bare_list (name : String) (l : List (Val N)) (d : Option (Val N)) (o : Obj N)
    (ho : o.values = .list l) :
    (.str name ∈ l → attrGet name d o = .error .typeError) ∧
    (.str name ∉ l → attrGet name d o = match d, o.useDefaults with
      | some x, true => .ok x
      | _, _ => .error .typeError) := by
  refine ⟨fun h => ?_, fun h => ?_⟩
  · unfold attrGet
    rw [ho]
    simp only
    split
    · rfl
    · next hn => exact absurd (List.any_eq_true.2 ⟨.str name, h, by simp⟩) hn
  · unfold attrGet
    rw [ho]
    simp only
    split
    · next hn =>
      obtain ⟨v, hv, hh⟩ := List.any_eq_true.1 hn
      cases v with
      | str s =>
        have : s = name := by simpa using hh
        rw [this] at hv
        exact absurd hv h
      | _ => simp at hh
    rename_i hn
    unfold orDefault
    cases d with
    | none => rfl
    | some x => cases o.useDefaults <;> rfl

/-- The list `["year"]`, attributes `year` and `years`, both with a default. -/
example : attrGet "year" (some (.int 3)) (⟨.list [.str "year"], true⟩ : Obj ℕ) = .error .typeError ∧
    attrGet "years" (some (.int 3)) (⟨.list [.str "year"], true⟩ : Obj ℕ) = .ok (.int 3) :=
  ⟨(C58_bare_list "year" _ (some (.int 3)) ⟨.list [.str "year"], true⟩ rfl).1 (by simp),
    (C58_bare_list "years" _ (some (.int 3)) ⟨.list [.str "year"], true⟩ rfl).2 (by simp)⟩

/-- **C58.** Deleting a managed attribute always raises `KeyError`, but takes its value away. -/
theorem C58_delete_always_raises (name : String) (o : Obj N) (l : List (Key N × Val N))
    (hwf : Dict.WF l) (ho : o.values = .dict l) (d : Option (Val N)) :
    (attrDelete name o).1 = .error .keyError ∧
    attrGet name d (attrDelete name o).2 = unset d o.useDefaults := by
  cases hg : Dict.get? l (.str name) with
  | none =>
    refine ⟨by simp [attrDelete, ho, hg], ?_⟩
    cases d <;> simp [attrDelete, attrGet, ho, hg, orDefault, unset]
  | some v =>
    refine ⟨by simp [attrDelete, ho, hg], ?_⟩
    have : Dict.get? (Dict.del l (.str name)) (Key.str (N := N) name) = none := by
      rw [Dict.get?_del hwf]; simp
    cases d <;> simp [attrDelete, attrGet, ho, hg, this, orDefault, unset]

/-- **C58.** Reading a file replaces everything that was there before (values from a dict are all
gone), and reports success exactly for files that hold a dict (and convert without an error). A failed
read does not keep the old values: after a missing or malformed file the reader is empty. -/
theorem C58_read_replaces_everything (cls : String → StrClass N) (o : Obj N)
    (l₀ : List (Key N × Val N)) (ho : o.values = .dict l₀) (file : Option (Except PyErr (Val N)))
    (num : Bool) :
    ((read cls o file num).1 = .ok () ↔
      ∃ v l, file = some (.ok v) ∧ (if num then conv cls v else .ok v) = .ok (.dict l)) ∧
    (∀ v l, file = some (.ok v) → (if num then conv cls v else .ok v) = .ok (.dict l) →
      (read cls o file num).2.values = .dict l) ∧
    (∀ (o' : Obj N) (l' : List (Key N × Val N)), o'.values = .dict l' →
      o'.useDefaults = o.useDefaults → (read cls o' file num) = (read cls o file num)) ∧
    ((read cls o none num).2.values = .dict []) ∧
    ∀ e, (read cls o (some (.error e)) num).2.values = .dict [] := by
  refine ⟨?_, ?_, fun o' l' hl' ho' => ?_, ?_, fun e => ?_⟩
  · rcases file with _ | _ | v
    · simp [read, ho, cleared]
    · simp [read, ho, cleared]
    · simp only [read, ho, cleared]
      cases hc : (if num then conv cls v else .ok v) with
      | error e => simp [hc]
      | ok w => cases w <;> simp [hc]
  · rintro v l rfl hc
    simp [read, ho, cleared, hc]
  · obtain ⟨v1, u1⟩ := o
    obtain ⟨v2, u2⟩ := o'
    simp only at ho hl' ho'
    subst ho hl' ho'
    rfl
  · simp [read, ho, cleared]
  · simp [read, ho, cleared]

/-- **C58.** A file that holds a single string, number or constant spoils the reader: the read fails
with `TypeError`, and so does every later read, of whatever file, with `AttributeError`. (A file that
holds a list also fails, but the next read works.) -/
theorem C58_bare_value_refuted (cls : String → StrClass N) (o : Obj N) (l₀ : List (Key N × Val N))
    (ho : o.values = .dict l₀) (v w : Val N) (num : Bool)
    (hv : (if num then conv cls v else .ok v) = .ok w) (hd : ∀ l, w ≠ .dict l) :
    (read cls o (some (.ok v)) num).1 = .error .typeError ∧
    ((∀ l, w ≠ .list l) → ∀ file num',
      read cls (read cls o (some (.ok v)) num).2 file num' =
        (.error .attributeError, (read cls o (some (.ok v)) num).2)) ∧
    ((∃ l, w = .list l) → ∀ file num',
      (read cls (read cls o (some (.ok v)) num).2 file num').1 = (read cls o file num').1) := by
  refine ⟨?_, fun hl file num' => ?_, ?_⟩
  · simp only [read, ho, cleared, hv]
  · simp only [read, ho, cleared, hv]
  · rintro ⟨m, rfl⟩ file num'
    simp only [read, ho, cleared, hv]
    rcases file with _ | _ | v'
    · rfl
    · rfl
    · cases hc : (if num' then conv cls v' else .ok v') with
      | error e => simp [hc]
      | ok w => cases w <;> simp [hc]

/-! ## Examples -/

/-- `"2018"` and `"2018.0"` are integers, `"0.5"` is a number, everything else is text. -/
def exCls : String → StrClass ℕ := fun s =>
  if s = "2018" ∨ s = "2018.0" then .int 2018 else if s = "0.5" then .num (.ok 7) else .text

example : conv exCls (.dict [(.str "rates", .dict [(.str "2018", .list [.str "0.5", .str "x", .null])])]) =
    .ok (.dict [(.str "rates", .dict [(.int 2018, .list [.num 7, .str "x", .null])])]) := by rfl
example : NoClash exCls
    (.dict [(.str "rates", .dict [(.str "2018", .list [.str "0.5", .str "x", .null])])]) := by
  simp [NoClash, NoClashItems, NoClashList]
example : Plain exCls (.dict [(.int 2018, .list [.num 7, .str "x"])]) ∧
    Real (N := ℕ) (.dict [(.int 2018, .list [.num 7, .str "x"])]) ∧
    Faithful exCls ⟨true, fun _ => "2018", fun _ => "0.5"⟩ (.dict [(.int 2018, .list [.num 7, .str "x"])]) := by
  refine ⟨?_, ?_, ?_⟩
  · simp [Plain, PlainItems, PlainList, exCls]
  · simp [Real, RealItems, RealList, Dict.WF]
  · simp [Faithful, FaithfulItems, FaithfulList, exCls]
example : emit ⟨true, fun _ => "2018", fun _ => "0.5"⟩ (.dict [(.int 2018, .list [.num 7, .str "x"])]) =
    .ok (.dict [(Key.str "2018", .list [.str "0.5", Val.str (N := ℕ) "x"])]) := by rfl
example : conv exCls (.dict [(.str "2018", .int 1), (.str "2018.0", .int 2)]) =
    .ok (.dict [(.int 2018, .int 2)]) :=
  C46_clashing_keys_lose_a_value exCls "2018" "2018.0" 2018 rfl rfl 1 2
example : attrSet "a" (.int 5) (⟨.dict [], true⟩ : Obj ℕ) =
      .ok ⟨.dict [(.str "a", .int 5)], true⟩ ∧
    attrGet "a" (some (.int 3)) (attrDelete "a" (⟨.dict [(.str "a", .int 5)], true⟩ : Obj ℕ)).2 =
      .ok (.int 3) := ⟨rfl, rfl⟩
/-- A file that holds the text `"2018"` only. -/
example : (read exCls ⟨.dict [], true⟩ (some (.ok (.str "2018"))) true).1 = .error .typeError ∧
    (read exCls (read exCls ⟨.dict [], true⟩ (some (.ok (.str "2018"))) true).2
      (some (.ok (.dict []))) true).1 = .error .attributeError := by
  have h := C58_bare_value_refuted exCls ⟨.dict [], true⟩ [] rfl (.str "2018") (.int 2018) true rfl
    (by simp)
  exact ⟨h.1, by rw [h.2.1 (by simp) _ _]⟩

end Forecaster.Reader
