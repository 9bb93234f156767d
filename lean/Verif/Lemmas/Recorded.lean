import Verif.Model.Recorded
import Verif.Lemmas.Dict
import Mathlib.Data.Set.Basic
import Mathlib.Tactic.Linarith

/-! Helper lemmas for `Verif/Props/Recorded.lean`: what reading does to the caches. -/

namespace Forecaster.Recorded

open Forecaster

variable {O κ V σ : Type} [DecidableEq O] [DecidableEq κ]

/-- Getters read only properties of lower rank, and look only at other years' entries directly. -/
def Prog.Respects (rank : κ → ℕ) (r : ℕ) (now : κ → ℤ) : Prog κ V → Prop
  | .done _ => True
  | .ask k next => rank k < r ∧ ∀ v, (next v).Respects rank r now
  | .past k y next => y ≠ now k ∧ ∀ v, (next v).Respects rank r now

/-- No property depends on itself. -/
def Acyclic (c : Sys O κ V σ) (rank : κ → ℕ) : Prop :=
  ∀ k years w, (c.fget k years w).Respects rank (rank k) fun q => years (c.obj q)

/-! ### Evaluation without caches -/

/-- The value of a getter when `f` gives the values of properties. -/
def evProg (f : κ → Except PyErr V) (s : St O κ V σ) : Prog κ V → Except PyErr V
  | .done r => r
  | .ask k next =>
    match f k with
    | .ok v => evProg f s (next v)
    | .error e => .error e
  | .past k y next => evProg f s (next (Dict.get? (s.hist k) y))

/-- The value of a property. -/
def evN (c : Sys O κ V σ) (s : St O κ V σ) : ℕ → κ → Except PyErr V
  | 0, _ => .error .recursionError
  | n + 1, k =>
    match s.now c k with
    | some v => .ok v
    | none => evProg (evN c s n) s (c.fget k s.year s.world)

/-- The properties that a getter computes. -/
def trProg (f : κ → Except PyErr V) (t : κ → Set κ) (s : St O κ V σ) : Prog κ V → Set κ
  | .done _ => ∅
  | .ask k next =>
    match f k with
    | .ok v => t k ∪ trProg f t s (next v)
    | .error _ => t k
  | .past k y next => trProg f t s (next (Dict.get? (s.hist k) y))

/-- The properties computed when one is read. -/
def trN (c : Sys O κ V σ) (s : St O κ V σ) : ℕ → κ → Set κ
  | 0, _ => ∅
  | n + 1, k =>
    match s.now c k with
    | some _ => ∅
    | none => {k} ∪ trProg (evN c s n) (trN c s n) s (c.fget k s.year s.world)

theorem evProg_congr {rank : κ → ℕ} {r : ℕ} {now : κ → ℤ} {f g : κ → Except PyErr V}
    {t u : κ → Set κ}
    (s : St O κ V σ) (h : ∀ k, rank k < r → f k = g k ∧ t k = u k) (P : Prog κ V)
    (hP : P.Respects rank r now) :
    evProg f s P = evProg g s P ∧ trProg f t s P = trProg g u s P := by
  induction P with
  | done r => exact ⟨rfl, rfl⟩
  | ask k next ih =>
    simp only [evProg, trProg]
    rw [(h k hP.1).1, (h k hP.1).2]
    cases g k with
    | ok v => exact ⟨(ih v (hP.2 v)).1, by simp only; rw [(ih v (hP.2 v)).2]⟩
    | error e => exact ⟨rfl, rfl⟩
  | past k y next ih => exact ih _ (hP.2 _)

theorem evN_fuel {c : Sys O κ V σ} {rank : κ → ℕ} (hc : Acyclic c rank) (s : St O κ V σ) :
    ∀ n m k, rank k < n → rank k < m → evN c s n k = evN c s m k ∧ trN c s n k = trN c s m k := by
  intro n
  induction n with
  | zero => intro m k h; omega
  | succ n ih =>
    intro m k h1 h2
    obtain ⟨m, rfl⟩ : ∃ m', m = m' + 1 := ⟨m - 1, by omega⟩
    simp only [evN, trN]
    cases s.now c k with
    | some v => exact ⟨rfl, rfl⟩
    | none =>
      have := evProg_congr (f := evN c s n) (g := evN c s m) (t := trN c s n) (u := trN c s m) s
        (fun q hq => ih m q (by omega) (by omega)) _ (hc k s.year s.world)
      exact ⟨this.1, by simp only; rw [this.2]⟩

/-- The value of a property in a state. -/
def val (c : Sys O κ V σ) (rank : κ → ℕ) (s : St O κ V σ) (k : κ) : Except PyErr V :=
  evN c s (rank k + 1) k

/-- What is computed when it is read. -/
def tr (c : Sys O κ V σ) (rank : κ → ℕ) (s : St O κ V σ) (k : κ) : Set κ :=
  trN c s (rank k + 1) k

theorem val_some {c : Sys O κ V σ} {rank : κ → ℕ} {s : St O κ V σ} {k : κ} {v : V}
    (h : s.now c k = some v) : val c rank s k = .ok v ∧ tr c rank s k = ∅ := by
  simp only [val, tr, evN, trN, h, and_self]

theorem val_none {c : Sys O κ V σ} {rank : κ → ℕ} (hc : Acyclic c rank) {s : St O κ V σ} {k : κ}
    (h : s.now c k = none) :
    val c rank s k = evProg (val c rank s) s (c.fget k s.year s.world) ∧
    tr c rank s k = {k} ∪ trProg (val c rank s) (tr c rank s) s (c.fget k s.year s.world) := by
  simp only [val, tr, evN, trN, h]
  have := evProg_congr (f := evN c s (rank k)) (g := val c rank s) (t := trN c s (rank k))
    (u := tr c rank s) s (fun q hq => evN_fuel hc s _ _ q hq (by omega)) _ (hc k s.year s.world)
  exact ⟨this.1, by rw [this.2]⟩

/-! ### Traces -/

theorem mem_trProg {rank : κ → ℕ} {r : ℕ} {now : κ → ℤ} {f : κ → Except PyErr V} {t : κ → Set κ}
    {s : St O κ V σ} (P : Prog κ V) (hP : P.Respects rank r now) {q : κ}
    (h : q ∈ trProg f t s P) : ∃ k, rank k < r ∧ q ∈ t k ∧ t k ⊆ trProg f t s P := by
  induction P with
  | done r => cases h
  | ask k next ih =>
    simp only [trProg] at h ⊢
    cases hf : f k with
    | ok v =>
      simp only [hf] at h ⊢
      rcases h with h | h
      · exact ⟨k, hP.1, h, Set.subset_union_left⟩
      · obtain ⟨k', h1, h2, h3⟩ := ih v (hP.2 v) h
        exact ⟨k', h1, h2, h3.trans Set.subset_union_right⟩
    | error e =>
      simp only [hf] at h ⊢
      exact ⟨k, hP.1, h, subset_rfl⟩
  | past k y next ih => exact ih _ (hP.2 _) h

theorem tr_rank {c : Sys O κ V σ} {rank : κ → ℕ} (hc : Acyclic c rank) (s : St O κ V σ) :
    ∀ n k, rank k < n → ∀ q ∈ tr c rank s k, (q = k ∨ rank q < rank k) ∧ s.now c q = none ∧
      tr c rank s q ⊆ tr c rank s k := by
  intro n
  induction n with
  | zero => intro k h; omega
  | succ n ih =>
    intro k hk q hq
    cases hn : s.now c k with
    | some v => rw [(val_some hn).2] at hq; cases hq
    | none =>
      rw [(val_none hc hn).2] at hq
      rcases hq with hq | hq
      · rw [Set.mem_singleton_iff] at hq
        subst hq; exact ⟨.inl rfl, hn, subset_rfl⟩
      · obtain ⟨k', h1, h2, h3⟩ := mem_trProg _ (hc k s.year s.world) hq
        obtain ⟨h4, h5, h6⟩ := ih k' (by omega) q h2
        refine ⟨.inr (by rcases h4 with rfl | h4 <;> omega), h5, ?_⟩
        rw [(val_none hc hn).2]
        exact (h6.trans h3).trans Set.subset_union_right

/-! ### The state with more in its caches -/

open Classical in
/-- The state in which the properties in `S` have been computed and put on record. -/
noncomputable def grow (c : Sys O κ V σ) (rank : κ → ℕ) (s : St O κ V σ) (S : Set κ) :
    St O κ V σ :=
  { s with hist := fun k =>
      if k ∈ S ∧ s.now c k = none then
        match val c rank s k with
        | .ok v => Dict.set (s.hist k) (s.year (c.obj k)) v
        | .error _ => s.hist k
      else s.hist k }

theorem grow_empty (c : Sys O κ V σ) (rank : κ → ℕ) (s : St O κ V σ) : grow c rank s ∅ = s := by
  simp [grow]

theorem now_grow (c : Sys O κ V σ) (rank : κ → ℕ) (s : St O κ V σ) (S : Set κ) (k : κ) :
    (∀ v, s.now c k = some v → (grow c rank s S).now c k = some v) ∧
    (s.now c k = none → k ∉ S → (grow c rank s S).now c k = none) ∧
    (s.now c k = none → k ∈ S → ∀ v, val c rank s k = .ok v →
      (grow c rank s S).now c k = some v) ∧
    (s.now c k = none → ∀ e, val c rank s k = .error e → (grow c rank s S).now c k = none) := by
  refine ⟨?_, ?_, ?_, ?_⟩
  · intro v h
    have : (grow c rank s S).hist k = s.hist k := by simp [grow, h]
    simp only [St.now, this]
    exact h
  · intro h hk
    have : (grow c rank s S).hist k = s.hist k := by simp [grow, hk]
    simp only [St.now, this]
    exact h
  · intro h hk v hv
    have : (grow c rank s S).hist k = Dict.set (s.hist k) (s.year (c.obj k)) v := by
      simp [grow, hk, h, hv]
    simp only [St.now, this]
    exact Dict.get?_set_self _ _ _
  · intro h e he
    have : (grow c rank s S).hist k = s.hist k := by simp [grow, he]
    simp only [St.now, this]
    exact h

theorem past_grow (c : Sys O κ V σ) (rank : κ → ℕ) (s : St O κ V σ) (S : Set κ) (k : κ) {y : ℤ}
    (h : y ≠ s.year (c.obj k)) :
    Dict.get? ((grow c rank s S).hist k) y = Dict.get? (s.hist k) y := by
  simp only [grow]
  split
  · split
    · rw [Dict.get?_set_ne _ _ (Ne.symm h)]
    · rfl
  · rfl

theorem hist_grow (c : Sys O κ V σ) (rank : κ → ℕ) (s : St O κ V σ) {S T : Set κ} {k : κ}
    (h : k ∈ S ↔ k ∈ T) : (grow c rank s S).hist k = (grow c rank s T).hist k := by
  simp only [grow]
  by_cases hk : k ∈ S
  · have := h.1 hk
    simp [hk, this]
  · have : k ∉ T := fun x => hk (h.2 x)
    simp [hk, this]

/-- Only what `S` contains of uncomputed properties with a value matters. -/
theorem grow_congr (c : Sys O κ V σ) (rank : κ → ℕ) (s : St O κ V σ) {S T : Set κ}
    (h : ∀ k v, s.now c k = none → val c rank s k = .ok v → (k ∈ S ↔ k ∈ T)) :
    grow c rank s S = grow c rank s T := by
  have : (grow c rank s S).hist = (grow c rank s T).hist := by
    funext k
    cases hn : s.now c k with
    | some v => simp [grow, hn]
    | none =>
      cases hv : val c rank s k with
      | error e => simp [grow, hv]
      | ok v => exact hist_grow c rank s (h k v hn hv)
  show St.mk _ _ (grow c rank s S).hist _ = St.mk _ _ (grow c rank s T).hist _
  rw [this]

/-- Whatever has been computed, what it needed and is cached has been computed. -/
def Closed (c : Sys O κ V σ) (rank : κ → ℕ) (s : St O κ V σ) (S : Set κ) : Prop :=
  ∀ k ∈ S, ∀ v, val c rank s k = .ok v → ∀ q ∈ tr c rank s k, c.cached q = true → q ∈ S

/-- What reading `k` puts on record. -/
def fills (c : Sys O κ V σ) (rank : κ → ℕ) (s : St O κ V σ) (k : κ) : Set κ :=
  {q | q ∈ tr c rank s k ∧ c.cached q = true}

theorem closed_union {c : Sys O κ V σ} {rank : κ → ℕ} (hc : Acyclic c rank) {s : St O κ V σ}
    {S : Set κ} (hS : Closed c rank s S) (k : κ) : Closed c rank s (S ∪ fills c rank s k) := by
  intro q hq v hv x hx hcx
  rcases hq with hq | hq
  · exact .inl (hS q hq v hv x hx hcx)
  · exact .inr ⟨(tr_rank hc s _ k (Nat.lt_succ_self _) q hq.1).2.2 hx, hcx⟩

theorem read_grow {c : Sys O κ V σ} {rank : κ → ℕ} (hc : Acyclic c rank) (s : St O κ V σ) :
    ∀ n k, rank k < n → ∀ S, Closed c rank s S →
      read c n k (grow c rank s S) = (val c rank s k, grow c rank s (S ∪ fills c rank s k)) := by
  intro n
  induction n with
  | zero => intro k h; omega
  | succ n ih =>
    intro k hk S hS
    obtain ⟨g1, g2, g3, g4⟩ := now_grow c rank s S k
    simp only [read]
    cases hn : s.now c k with
    | some v =>
      rw [g1 v hn]
      obtain ⟨h1, h2⟩ := val_some (rank := rank) hn
      simp only [h1, fills, h2, Set.mem_empty_iff_false, false_and, Set.ofPred_false, Set.union_empty]
    | none =>
      -- running the getter
      have run : ∀ (P : Prog κ V) (_ : P.Respects rank (rank k) fun q => s.year (c.obj q)) (S : Set κ),
          Closed c rank s S →
          exec (read c n) P (grow c rank s S) = (evProg (val c rank s) s P,
            grow c rank s (S ∪ {q | q ∈ trProg (val c rank s) (tr c rank s) s P ∧ c.cached q = true})) := by
        intro P
        induction P with
        | done r =>
          intro _ S _
          simp only [exec, evProg, trProg, Set.mem_empty_iff_false, false_and, Set.ofPred_false,
            Set.union_empty]
        | ask q next ihP =>
          intro hP S hS
          simp only [exec, evProg, trProg]
          rw [ih q (by have := hP.1; omega) S hS]
          cases hv : val c rank s q with
          | ok v =>
            simp only
            rw [ihP v (hP.2 v) _ (closed_union hc hS q)]
            congr 2
            ext x
            simp only [fills, Set.mem_union, Set.mem_ofPred_eq]
            tauto
          | error e => simp only [fills]
        | past q y next ihP =>
          intro hP S hS
          simp only [exec, evProg, trProg]
          rw [past_grow c rank s S q hP.1]
          exact ihP _ (hP.2 _) S hS
      obtain ⟨e1, e2⟩ := val_none hc hn
      have hres := hc k s.year s.world
      have hk_notin : k ∉ trProg (val c rank s) (tr c rank s) s (c.fget k s.year s.world) := by
        intro h
        obtain ⟨k', h1, h2, _⟩ := mem_trProg _ hres h
        rcases (tr_rank hc s _ k' (Nat.lt_succ_self _) k h2).1 with h | h
        · rw [h] at h1; omega
        · omega
      by_cases hcase : k ∈ S ∧ ∃ v, val c rank s k = .ok v
      · obtain ⟨hkS, v, hv⟩ := hcase
        rw [g3 hn hkS v hv]
        simp only [hv]
        congr 1
        apply grow_congr
        intro q _ _ _
        refine ⟨.inl, ?_⟩
        rintro (h | h)
        · exact h
        · exact hS k hkS v hv q h.1 h.2
      · have hnow : (grow c rank s S).now c k = none := by
          by_cases hkS : k ∈ S
          · cases hv : val c rank s k with
            | ok v => exact absurd ⟨hkS, v, hv⟩ hcase
            | error e => exact g4 hn e hv
          · exact g2 hn hkS
        rw [hnow]
        simp only
        have hfg : c.fget k (grow c rank s S).year (grow c rank s S).world
            = c.fget k s.year s.world := rfl
        rw [hfg, run _ hres S hS, ← e1]
        cases hv : val c rank s k with
        | error e =>
          simp only [keep]
          congr 1
          apply grow_congr
          intro q v hq hqv
          simp only [fills, e2, Set.mem_union, Set.mem_ofPred_eq, Set.mem_singleton_iff]
          have : q ≠ k := by rintro rfl; rw [hv] at hqv; cases hqv
          tauto
        | ok v =>
          have hkS : k ∉ S := fun h => hcase ⟨h, v, hv⟩
          simp only [keep]
          congr 1
          by_cases hck : c.cached k = true
          · rw [if_pos hck]
            simp only [St.record]
            simp only [grow]
            congr 1
            funext q
            by_cases hq : q = k
            · subst hq
              simp only [if_true, fills, e2, Set.mem_union, Set.mem_ofPred_eq, Set.mem_singleton_iff,
                hkS, hk_notin, hck, hn, true_or, and_true, or_true,
                and_self, if_true, hv, false_and, or_false, if_false]
            · rw [if_neg hq]
              refine hist_grow c rank s ?_
              simp only [hq, fills, e2, Set.mem_union, Set.mem_ofPred_eq,
                Set.mem_singleton_iff, false_or]
          · rw [if_neg hck]
            apply grow_congr
            intro q w hq hqv
            simp only [fills, e2, Set.mem_union, Set.mem_ofPred_eq, Set.mem_singleton_iff]
            have : c.cached q = true → q ≠ k := by rintro h rfl; exact hck h
            tauto

theorem closed_empty (c : Sys O κ V σ) (rank : κ → ℕ) (s : St O κ V σ) : Closed c rank s ∅ := by
  intro k hk; cases hk

/-- What `recordOne` puts on record. -/
def records (c : Sys O κ V σ) (rank : κ → ℕ) (s : St O κ V σ) (k : κ) : Set κ :=
  {k} ∪ fills c rank s k

theorem closed_records {c : Sys O κ V σ} {rank : κ → ℕ} (hc : Acyclic c rank) {s : St O κ V σ}
    {S : Set κ} (hS : Closed c rank s S) (k : κ) : Closed c rank s (S ∪ records c rank s k) := by
  intro q hq v hv x hx hcx
  rcases hq with hq | hq | hq
  · exact .inl (hS q hq v hv x hx hcx)
  · rw [Set.mem_singleton_iff] at hq
    subst hq
    exact .inr (.inr ⟨hx, hcx⟩)
  · exact .inr (.inr ⟨(tr_rank hc s _ k (Nat.lt_succ_self _) q hq.1).2.2 hx, hcx⟩)

theorem recordOne_grow {c : Sys O κ V σ} {rank : κ → ℕ} (hc : Acyclic c rank) (s : St O κ V σ)
    {n : ℕ} {k : κ} (hk : rank k < n) {S : Set κ} (hS : Closed c rank s S) :
    (∀ v, val c rank s k = .ok v →
      recordOne c n k (grow c rank s S) = (none, grow c rank s (S ∪ records c rank s k))) ∧
    (∀ e, val c rank s k = .error e → (recordOne c n k (grow c rank s S)).1 = some e) := by
  obtain ⟨g1, g2, g3, g4⟩ := now_grow c rank s S k
  constructor
  · intro v hv
    simp only [recordOne]
    cases hn : s.now c k with
    | some w =>
      rw [g1 w hn]
      simp only
      congr 1
      apply grow_congr
      intro q x hq _
      have : q ≠ k := by rintro rfl; rw [hn] at hq; cases hq
      simp only [records, fills, (val_some (rank := rank) hn).2, Set.mem_union, Set.mem_ofPred_eq,
        Set.mem_singleton_iff, Set.mem_empty_iff_false]
      tauto
    | none =>
      by_cases hkS : k ∈ S
      · rw [g3 hn hkS v hv]
        simp only
        congr 1
        apply grow_congr
        intro q x hq _
        refine ⟨.inl, ?_⟩
        rintro (h | h | h)
        · exact h
        · rw [Set.mem_singleton_iff] at h; rw [h]; exact hkS
        · exact hS k hkS v hv q h.1 h.2
      · rw [g2 hn hkS]
        simp only
        rw [read_grow hc s n k hk S hS, hv]
        simp only
        congr 1
        by_cases hck : c.cached k = true
        · -- recorded by the read already; recording again sets the same entry
          simp only [St.record, grow]
          congr 1
          have hin : k ∈ fills c rank s k := ⟨by rw [(val_none hc hn).2]; exact .inl rfl, hck⟩
          funext q
          by_cases hq : q = k
          · subst hq
            simp only [if_true, records, Set.mem_union, Set.mem_singleton_iff, hin, or_true,
              true_or, hn, and_self, hv]
            have : ∀ (d : Dict ℤ V) (y : ℤ) (v : V), Dict.set (Dict.set d y v) y v = Dict.set d y v := by
              intro d y v
              induction d with
              | nil => simp [Dict.set]
              | cons a d ih =>
                simp only [Dict.set]
                split
                · rename_i h; simp [Dict.set, h]
                · rename_i h; simp [Dict.set, h, ih]
            exact this _ _ _
          · rw [if_neg hq]
            refine hist_grow c rank s ?_
            simp only [hq, records, Set.mem_union, Set.mem_singleton_iff, false_or]
        · have hnot : k ∉ fills c rank s k := fun h => hck h.2
          simp only [St.record, grow]
          congr 1
          funext q
          by_cases hq : q = k
          · subst hq
            simp only [if_true, records, Set.mem_union, Set.mem_singleton_iff, hnot, hkS, or_true,
              true_or, hn, and_self, hv, or_false, false_and, if_false]
          · rw [if_neg hq]
            refine hist_grow c rank s ?_
            simp only [hq, records, Set.mem_union, Set.mem_singleton_iff, false_or]
  · intro e he
    have hn : s.now c k = none := by
      cases hn : s.now c k with
      | none => rfl
      | some v => rw [(val_some (rank := rank) hn).1] at he; cases he
    simp only [recordOne]
    rw [g4 hn e he, read_grow hc s n k hk S hS, he]

/-- What recording several properties puts on record. -/
def recordsAll (c : Sys O κ V σ) (rank : κ → ℕ) (s : St O κ V σ) (ks : List κ) : Set κ :=
  {q | ∃ k ∈ ks, q ∈ records c rank s k}

theorem recordAll_grow {c : Sys O κ V σ} {rank : κ → ℕ} (hc : Acyclic c rank) (s : St O κ V σ)
    {n : ℕ} (ks : List κ) (hk : ∀ k ∈ ks, rank k < n) : ∀ {S : Set κ}, Closed c rank s S →
    ((∀ k ∈ ks, ∃ v, val c rank s k = .ok v) →
      recordAll c n ks (grow c rank s S) = (none, grow c rank s (S ∪ recordsAll c rank s ks))) ∧
    ((∃ k ∈ ks, ∃ e, val c rank s k = .error e) →
      ∃ k ∈ ks, ∃ e, val c rank s k = .error e ∧
        (recordAll c n ks (grow c rank s S)).1 = some e) := by
  induction ks with
  | nil =>
    intro S _
    constructor
    · intro _
      simp [recordAll, recordsAll]
    · rintro ⟨k, h, _⟩; cases h
  | cons k ks ih =>
    intro S hS
    have hk' := hk k List.mem_cons_self
    obtain ⟨r1, r2⟩ := recordOne_grow hc s hk' hS
    constructor
    · intro h
      obtain ⟨v, hv⟩ := h k List.mem_cons_self
      simp only [recordAll]
      rw [r1 v hv]
      simp only
      rw [(ih (fun q hq => hk q (List.mem_cons_of_mem _ hq)) (closed_records hc hS k)).1
        (fun q hq => h q (List.mem_cons_of_mem _ hq))]
      congr 2
      ext x
      simp only [recordsAll, Set.mem_union, Set.mem_ofPred_eq, List.mem_cons, exists_eq_or_imp]
      tauto
    · intro h
      cases hv : val c rank s k with
      | error e =>
        refine ⟨k, List.mem_cons_self, e, hv, ?_⟩
        have := r2 e hv
        simp only [recordAll]
        revert this
        generalize recordOne c n k (grow c rank s S) = p
        rcases p with ⟨_ | e', s'⟩
        · intro h; cases h
        · intro h; exact h
      | ok v =>
        obtain ⟨q, hq, e, he⟩ := h
        rcases List.mem_cons.1 hq with rfl | hq
        · rw [hv] at he; cases he
        · obtain ⟨q', h1, e', h2, h3⟩ := (ih (fun q hq => hk q (List.mem_cons_of_mem _ hq))
            (closed_records hc hS k)).2 ⟨q, hq, e, he⟩
          refine ⟨q', List.mem_cons_of_mem _ h1, e', h2, ?_⟩
          simp only [recordAll]
          rw [r1 v hv]
          exact h3

theorem closed_recordsAll {c : Sys O κ V σ} {rank : κ → ℕ} (hc : Acyclic c rank) (s : St O κ V σ)
    (ks : List κ) : Closed c rank s (recordsAll c rank s ks) := by
  rintro q ⟨k, hk, hq⟩ v hv x hx hcx
  have := closed_records hc (closed_empty c rank s) k
  rw [Set.empty_union] at this
  exact ⟨k, hk, this q hq v hv x hx hcx⟩

/-! ### What a property depends on -/

/-- The getter reads, and looks into the histories of, properties in `D` only. -/
def Prog.Within (D : κ → Prop) : Prog κ V → Prop
  | .done _ => True
  | .ask k next => D k ∧ ∀ v, (next v).Within D
  | .past k _ next => D k ∧ ∀ v, (next v).Within D

/-- `s` and `t` are the same as far as the properties in `D` are concerned. -/
structure AgreeOn (c : Sys O κ V σ) (D : κ → Prop) (s t : St O κ V σ) : Prop where
  hist : ∀ k, D k → t.hist k = s.hist k
  year : ∀ k, D k → t.year (c.obj k) = s.year (c.obj k)
  fget : ∀ k, D k → c.fget k t.year t.world = c.fget k s.year s.world
  within : ∀ k, D k → (c.fget k s.year s.world).Within D

theorem evN_agree {c : Sys O κ V σ} {D : κ → Prop} {s t : St O κ V σ} (h : AgreeOn c D s t) :
    ∀ n k, D k → evN c t n k = evN c s n k := by
  intro n
  induction n with
  | zero => intro k _; rfl
  | succ n ih =>
    intro k hk
    have hnow : t.now c k = s.now c k := by
      simp only [St.now, h.hist k hk, h.year k hk]
    simp only [evN, hnow]
    cases s.now c k with
    | some v => rfl
    | none =>
      simp only [h.fget k hk]
      have run : ∀ P : Prog κ V, P.Within D → evProg (evN c t n) t P = evProg (evN c s n) s P := by
        intro P
        induction P with
        | done r => intro _; rfl
        | ask q next ihP =>
          intro hP
          simp only [evProg, ih q hP.1]
          cases evN c s n q with
          | ok v => exact ihP v (hP.2 v)
          | error e => rfl
        | past q y next ihP =>
          intro hP
          simp only [evProg, h.hist q hP.1]
          exact ihP _ (hP.2 _)
      exact run _ (h.within k hk)

theorem val_agree {c : Sys O κ V σ} {rank : κ → ℕ} {D : κ → Prop} {s t : St O κ V σ}
    (h : AgreeOn c D s t) {k : κ} (hk : D k) : val c rank t k = val c rank s k :=
  evN_agree h _ k hk

theorem val_grow {c : Sys O κ V σ} {rank : κ → ℕ} (hc : Acyclic c rank) (s : St O κ V σ) {S : Set κ}
    (hS : Closed c rank s S) (k : κ) : val c rank (grow c rank s S) k = val c rank s k := by
  have h1 := read_grow hc s (rank k + 1) k (Nat.lt_succ_self _) S hS
  have h2 := read_grow hc (grow c rank s S) (rank k + 1) k (Nat.lt_succ_self _) ∅ (closed_empty _ _ _)
  rw [grow_empty] at h2
  rw [h1] at h2
  exact (congrArg Prod.fst h2).symm

end Forecaster.Recorded

