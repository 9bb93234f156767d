import Verif.Lemmas.Dict
import Verif.Model.Ledger

/-!
# Properties of the ledger machinery (C12 - C15)
-/

namespace Forecaster.Ledger

open Forecaster

variable {P V σ : Type} [DecidableEq P]

/-! ### Helper lemmas -/

/-- `s'` differs from `s` at most in the rest of the program and, for the *current*
year only, in the histories; inputs of the current year are kept. -/
structure Frame (s s' : St P V σ) : Prop where
  iy : s'.initialYear = s.initialYear
  yr : s'.year = s.year
  inp : s'.inputs = s.inputs
  hist : ∀ p y, y ≠ s.year → Dict.get? (s'.hist p) y = Dict.get? (s.hist p) y

def WFH (s : St P V σ) : Prop := ∀ p, Dict.WF (s.hist p)

theorem Frame.refl (s : St P V σ) : Frame s s := ⟨rfl, rfl, rfl, fun _ _ _ => rfl⟩

theorem Frame.trans {s t u : St P V σ} (h : Frame s t) (h' : Frame t u) : Frame s u :=
  ⟨h'.iy.trans h.iy, h'.yr.trans h.yr, h'.inp.trans h.inp, fun p y hy =>
    (h'.hist p y (by rw [h.yr]; exact hy)).trans (h.hist p y hy)⟩

theorem get?_record (s : St P V σ) (p q : P) (v : V) (y : ℤ) :
    Dict.get? ((s.record p v).hist q) y
      = if q = p ∧ y = s.year then some v else Dict.get? (s.hist q) y := by
  unfold St.record
  by_cases h : q = p
  · subst h
    simp only [if_true, Dict.get?_set, true_and]
    by_cases h' : s.year = y
    · simp [h']
    · simp [h', Ne.symm h']
  · simp [h]

theorem frame_record (s : St P V σ) (p : P) (v : V) : Frame s (s.record p v) :=
  ⟨rfl, rfl, rfl, fun q y hy => by rw [get?_record]; simp [hy]⟩

theorem get?_drop {s : St P V σ} (hs : WFH s) (p q : P) (y : ℤ) :
    Dict.get? ((s.drop p).hist q) y
      = if q = p ∧ y = s.year then none else Dict.get? (s.hist q) y := by
  unfold St.drop
  by_cases h : q = p
  · subst h
    simp only [if_true, Dict.get?_del (hs q), true_and]
    by_cases h' : s.year = y
    · simp [h']
    · simp [h', Ne.symm h']
  · simp [h]

theorem wfh_record {s : St P V σ} (hs : WFH s) (p : P) (v : V) : WFH (s.record p v) := by
  intro q
  unfold St.record
  by_cases h : q = p
  · simp only [h, if_true]; exact Dict.wf_set (hs p) _ _
  · simp only [h, if_false]; exact hs q

theorem wfh_drop {s : St P V σ} (hs : WFH s) (p : P) : WFH (s.drop p) := by
  intro q
  unfold St.drop
  by_cases h : q = p
  · simp only [h, if_true]; exact Dict.wf_del (hs p) _
  · simp only [h, if_false]; exact hs q

/-- `s'` keeps every entry of `s`. -/
def Keeps (s s' : St P V σ) : Prop :=
  ∀ p y v, Dict.get? (s.hist p) y = some v → Dict.get? (s'.hist p) y = some v

theorem read_props (c : Cls P V σ) {s : St P V σ} (hs : WFH s) (p : P) :
    Frame s (read c s p).2 ∧ WFH (read c s p).2 ∧ Keeps s (read c s p).2 := by
  unfold read
  rcases h : Dict.get? (s.hist p) s.year with _ | v
  · simp only
    split
    · refine ⟨⟨rfl, rfl, rfl, ?_⟩, ?_, ?_⟩
      · intro q y hy
        rw [get?_record]; simp [hy]
      · exact wfh_record (s := { s with world := (c.fget p s.year s.world).2 }) hs p _
      · intro q y v hv
        rw [get?_record]
        by_cases hc : q = p ∧ y = s.year
        · obtain ⟨rfl, rfl⟩ := hc; rw [h] at hv; cases hv
        · simp [hc, hv]
    · exact ⟨⟨rfl, rfl, rfl, fun _ _ _ => rfl⟩, hs, fun _ _ _ hv => hv⟩
  · exact ⟨Frame.refl s, hs, fun _ _ _ hv => hv⟩

theorem history_props (c : Cls P V σ) {s : St P V σ} (hs : WFH s) (p : P) :
    Frame s (history c s p).2 ∧ WFH (history c s p).2 ∧ Keeps s (history c s p).2 := by
  unfold history
  rcases h : Dict.get? (s.hist p) s.year with _ | v
  · simp only
    split
    · refine ⟨⟨rfl, rfl, rfl, ?_⟩, ?_, ?_⟩
      · intro q y hy
        rw [get?_record]; simp [hy]
      · exact wfh_record (s := { s with world := (c.fget p s.year s.world).2 }) hs p _
      · intro q y v hv
        rw [get?_record]
        by_cases hc : q = p ∧ y = s.year
        · obtain ⟨rfl, rfl⟩ := hc; rw [h] at hv; cases hv
        · simp [hc, hv]
    · exact ⟨⟨rfl, rfl, rfl, fun _ _ _ => rfl⟩, hs, fun _ _ _ hv => hv⟩
  · exact ⟨Frame.refl s, hs, fun _ _ _ hv => hv⟩

theorem recordStep_props (c : Cls P V σ) {s : St P V σ} (hs : WFH s) (p : P) :
    Frame s (recordStep c s p) ∧ WFH (recordStep c s p) ∧ Keeps s (recordStep c s p) ∧
      (Dict.get? ((recordStep c s p).hist p) s.year).isSome := by
  unfold recordStep
  rcases h : Dict.get? (s.hist p) s.year with _ | v
  · obtain ⟨h1, h2, h3⟩ := read_props c hs p
    refine ⟨h1.trans (frame_record _ _ _), wfh_record h2 _ _, ?_, ?_⟩
    · intro q y w hw
      rw [get?_record]
      by_cases hc : q = p ∧ y = (read c s p).2.year
      · obtain ⟨rfl, rfl⟩ := hc
        rw [h1.yr, h] at hw; cases hw
      · rw [if_neg hc]; exact h3 q y w hw
    · rw [get?_record, h1.yr]; simp
  · exact ⟨Frame.refl s, hs, fun _ _ _ hv => hv, by simp [h]⟩

theorem record_loop (c : Cls P V σ) (l : List P) {s : St P V σ} (hs : WFH s) :
    Frame s (l.foldl (recordStep c) s) ∧ WFH (l.foldl (recordStep c) s) ∧
      Keeps s (l.foldl (recordStep c) s) ∧
      ∀ p ∈ l, (Dict.get? ((l.foldl (recordStep c) s).hist p) s.year).isSome := by
  induction l generalizing s with
  | nil => exact ⟨Frame.refl s, hs, fun _ _ _ h => h, by simp⟩
  | cons p l ih =>
    obtain ⟨h1, h2, h3, h4⟩ := recordStep_props c hs p
    obtain ⟨k1, k2, k3, k4⟩ := ih h2
    refine ⟨h1.trans k1, k2, fun q y v hv => k3 q y v (h3 q y v hv), ?_⟩
    intro q hq
    rcases List.mem_cons.1 hq with rfl | hq
    · obtain ⟨v, hv⟩ := Option.isSome_iff_exists.1 h4
      exact Option.isSome_iff_exists.2 ⟨v, k3 _ _ _ hv⟩
    · have := k4 q hq
      rwa [h1.yr] at this

theorem isInput_of {s : St P V σ} {p : P} {d : Dict ℤ V} {v : V}
    (h : s.inputs p = some d) (h' : Dict.get? d s.year = some v) : s.isInput p = true := by
  simp [St.isInput, h, h']

theorem set_props (c : Cls P V σ) {s : St P V σ} (hs : WFH s) (p : P) (v : V) :
    Frame s (set c s p v) ∧ WFH (set c s p v) ∧
      (∀ q, s.isInput q = true →
        ∀ y, Dict.get? ((set c s p v).hist q) y = Dict.get? (s.hist q) y) ∧
      (∀ q, q ≠ p → (set c s p v).hist q = s.hist q) := by
  unfold set
  by_cases hi : s.isInput p = true
  · rw [if_pos hi]; exact ⟨Frame.refl s, hs, fun _ _ _ => rfl, fun _ _ => rfl⟩
  · simp only [hi]
    have hne : ∀ q, s.isInput q = true → q ≠ p := by
      rintro q hq rfl; exact hi hq
    cases hf : c.fset p with
    | none =>
      refine ⟨frame_record _ _ _, wfh_record hs _ _, ?_, ?_⟩
      · intro q hq y
        simp only [Bool.false_eq_true, if_false]
        rw [get?_record]; simp [hne q hq]
      · intro q hq; simp [St.record, hq]
    | some f =>
      refine ⟨⟨rfl, rfl, rfl, ?_⟩, ?_, ?_, ?_⟩
      · intro q y hy
        simp only [Bool.false_eq_true, if_false]
        rw [get?_drop hs]; simp [hy]
      · simp only [Bool.false_eq_true, if_false]; exact wfh_drop hs p
      · intro q hq y
        simp only [Bool.false_eq_true, if_false]
        rw [get?_drop hs]; simp [hne q hq]
      · intro q hq; simp [St.drop, hq]

theorem delete_props (c : Cls P V σ) {s : St P V σ} (hs : WFH s) (p : P) :
    Frame s (delete c s p) ∧ WFH (delete c s p) ∧
      (∀ q, s.isInput q = true →
        ∀ y, Dict.get? ((delete c s p).hist q) y = Dict.get? (s.hist q) y) ∧
      (∀ q, q ≠ p → (delete c s p).hist q = s.hist q) := by
  unfold delete
  by_cases hi : s.isInput p = true
  · rw [if_pos hi]; exact ⟨Frame.refl s, hs, fun _ _ _ => rfl, fun _ _ => rfl⟩
  · simp only [hi]
    have hne : ∀ q, s.isInput q = true → q ≠ p := by
      rintro q hq rfl; exact hi hq
    cases hf : c.fdel p with
    | none =>
      refine ⟨⟨rfl, rfl, rfl, ?_⟩, ?_, ?_, ?_⟩
      · intro q y hy
        simp only [Bool.false_eq_true, if_false]
        rw [get?_drop hs]; simp [hy]
      · simp only [Bool.false_eq_true, if_false]; exact wfh_drop hs p
      · intro q hq y
        simp only [Bool.false_eq_true, if_false]
        rw [get?_drop hs]; simp [hne q hq]
      · intro q hq; simp [St.drop, hq]
    | some f =>
      refine ⟨⟨rfl, rfl, rfl, ?_⟩, ?_, ?_, ?_⟩
      · intro q y hy
        simp only [Bool.false_eq_true, if_false]
        rw [get?_drop hs]; simp [hy]
      · simp only [Bool.false_eq_true, if_false]; exact wfh_drop hs p
      · intro q hq y
        simp only [Bool.false_eq_true, if_false]
        rw [get?_drop hs]; simp [hne q hq]
      · intro q hq; simp [St.drop, hq]

theorem isInput_frame {s s' : St P V σ} (h : Frame s s') (q : P) : s'.isInput q = s.isInput q := by
  simp [St.isInput, h.inp, h.yr]

theorem clear_loop (c : Cls P V σ) (l : List P) {s : St P V σ} (hs : WFH s) :
    Frame s (l.foldl (delete c) s) ∧ WFH (l.foldl (delete c) s) ∧
      (∀ q, s.isInput q = true →
        ∀ y, Dict.get? ((l.foldl (delete c) s).hist q) y = Dict.get? (s.hist q) y) := by
  induction l generalizing s with
  | nil => exact ⟨Frame.refl s, hs, fun _ _ _ => rfl⟩
  | cons p l ih =>
    obtain ⟨h1, h2, h3, _⟩ := delete_props c hs p
    obtain ⟨k1, k2, k3⟩ := ih h2
    refine ⟨h1.trans k1, k2, ?_⟩
    intro q hq y
    rw [List.foldl_cons, k3 q (by rw [isInput_frame h1]; exact hq), h3 q hq]

/-- Global invariant of a ledger started in year `y0` with `inputs`. -/
structure Inv (c : Cls P V σ) (y0 : ℤ) (inputs : P → Option (Dict ℤ V)) (s : St P V σ) : Prop where
  wf : WFH s
  iy : s.initialYear = y0
  le : y0 ≤ s.year
  inp : s.inputs = inputs
  past : ∀ p ∈ c.props, ∀ y, y0 ≤ y → y < s.year → (Dict.get? (s.hist p) y).isSome
  only : ∀ p y, (Dict.get? (s.hist p) y).isSome →
    (y0 ≤ y ∧ y ≤ s.year) ∨ ∃ d, inputs p = some d ∧ y ∈ Dict.keys d
  keep : ∀ p d y v, inputs p = some d → Dict.get? d y = some v → Dict.get? (s.hist p) y = some v

/-- a within-year operation that respects inputs of the current year keeps the invariant -/
theorem Inv.frame {c : Cls P V σ} {y0 : ℤ} {inputs : P → Option (Dict ℤ V)} {s s' : St P V σ}
    (h : Inv c y0 inputs s) (hf : Frame s s') (hw : WFH s')
    (hin : ∀ q, s.isInput q = true → ∀ v, Dict.get? (s.hist q) s.year = some v →
      Dict.get? (s'.hist q) s.year = some v) : Inv c y0 inputs s' := by
  refine ⟨hw, hf.iy.trans h.iy, hf.yr ▸ h.le, hf.inp.trans h.inp, ?_, ?_, ?_⟩
  · intro p hp y h1 h2
    rw [hf.yr] at h2
    rw [hf.hist p y h2.ne]
    exact h.past p hp y h1 h2
  · intro p y hy
    rw [hf.yr]
    by_cases e : y = s.year
    · exact .inl ⟨e ▸ h.le, e.le⟩
    · rw [hf.hist p y e] at hy
      exact h.only p y hy
  · intro p d y v hd hv
    have hk := h.keep p d y v hd hv
    by_cases e : y = s.year
    · subst e
      apply hin p _ v hk
      exact isInput_of (h.inp ▸ hd) hv
    · rw [hf.hist p y e]; exact hk

theorem inv_step {c : Cls P V σ} {y0 : ℤ} {inputs : P → Option (Dict ℤ V)} {s : St P V σ}
    (h : Inv c y0 inputs s) (op : Op P V σ) : Inv c y0 inputs (step c s op) := by
  cases op with
  | read p =>
    obtain ⟨h1, h2, h3⟩ := read_props c h.wf p
    exact h.frame h1 h2 fun q _ v hv => h3 q _ v hv
  | set p v =>
    obtain ⟨h1, h2, h3, _⟩ := set_props c h.wf p v
    exact h.frame h1 h2 fun q hq w hw => (h3 q hq _).trans hw
  | delete p =>
    obtain ⟨h1, h2, h3, _⟩ := delete_props c h.wf p
    exact h.frame h1 h2 fun q hq w hw => (h3 q hq _).trans hw
  | history p =>
    obtain ⟨h1, h2, h3⟩ := history_props c h.wf p
    exact h.frame h1 h2 fun q _ v hv => h3 q _ v hv
  | clearCache =>
    obtain ⟨h1, h2, h3⟩ := clear_loop c (c.props.filter fun p => c.cached p) h.wf
    exact h.frame h1 h2 fun q hq w hw => (h3 q hq _).trans hw
  | poke f => exact ⟨h.wf, h.iy, h.le, h.inp, h.past, h.only, h.keep⟩
  | nextYear =>
    obtain ⟨h1, h2, h3, h4⟩ := record_loop c c.props h.wf
    have h' : Inv c y0 inputs (c.props.foldl (recordStep c) s) :=
      h.frame h1 h2 fun q _ v hv => h3 q _ v hv
    have hy := h1.yr
    refine ⟨h2, h'.iy, ?_, h'.inp, ?_, ?_, h'.keep⟩
    · have := h'.le
      show y0 ≤ (c.props.foldl (recordStep c) s).year + 1
      omega
    · intro p hp y hy1 hy2
      show (Dict.get? ((c.props.foldl (recordStep c) s).hist p) y).isSome
      have hy2' : y < (c.props.foldl (recordStep c) s).year + 1 := hy2
      by_cases e : y = s.year
      · subst e; exact h4 p hp
      · exact h'.past p hp y hy1 (by omega)
    · intro p y hyy
      rcases h'.only p y hyy with ⟨a, b⟩ | hd
      · left
        refine ⟨a, ?_⟩
        show y ≤ (c.props.foldl (recordStep c) s).year + 1
        omega
      · exact .inr hd

theorem inv_init (c : Cls P V σ) (y0 : ℤ) (inputs : P → Option (Dict ℤ V))
    (hin : ∀ p d, inputs p = some d → Dict.WF d) (w : σ) :
    Inv c y0 inputs (init y0 inputs w) := by
  have hh : ∀ p, (init y0 inputs w).hist p = match inputs p with
      | some d => d | none => [] := by
    intro p
    show (match inputs p with | some d => Dict.update [] d | none => []) = _
    cases hp : inputs p with
    | none => rfl
    | some d => simp only; exact Dict.update_nil_left (hin p d hp)
  refine ⟨?_, rfl, le_refl _, rfl, ?_, ?_, ?_⟩
  · intro p
    rw [hh]
    cases hp : inputs p with
    | none => simp
    | some d => exact hin p d hp
  · intro p _ y h1 h2
    have h2' : y < y0 := h2
    omega
  · intro p y hy
    rw [hh] at hy
    cases hp : inputs p with
    | none => simp [hp] at hy
    | some d =>
      simp only [hp] at hy
      exact .inr ⟨d, rfl, Dict.get?_isSome.1 hy⟩
  · intro p d y v hd hv
    rw [hh, hd]; exact hv

theorem inv_run {c : Cls P V σ} {y0 : ℤ} {inputs : P → Option (Dict ℤ V)} {s : St P V σ}
    (h : Inv c y0 inputs s) (ops : List (Op P V σ)) : Inv c y0 inputs (run c s ops) := by
  unfold run
  induction ops generalizing s with
  | nil => exact h
  | cons op ops ih => exact ih (inv_step h op)

theorem step_year (c : Cls P V σ) {s : St P V σ} (hs : WFH s) (op : Op P V σ) :
    s.year ≤ (step c s op).year ∧ WFH (step c s op) ∧
      ∀ p y, y < s.year → Dict.get? ((step c s op).hist p) y = Dict.get? (s.hist p) y := by
  have fr : ∀ s', Frame s s' → WFH s' → s.year ≤ s'.year ∧ WFH s' ∧
      ∀ p y, y < s.year → Dict.get? (s'.hist p) y = Dict.get? (s.hist p) y :=
    fun s' hf hw => ⟨hf.yr.ge, hw, fun p y hy => hf.hist p y hy.ne⟩
  cases op with
  | read p => obtain ⟨h1, h2, _⟩ := read_props c hs p; exact fr _ h1 h2
  | set p v => obtain ⟨h1, h2, _⟩ := set_props c hs p v; exact fr _ h1 h2
  | delete p => obtain ⟨h1, h2, _⟩ := delete_props c hs p; exact fr _ h1 h2
  | history p => obtain ⟨h1, h2, _⟩ := history_props c hs p; exact fr _ h1 h2
  | clearCache =>
    obtain ⟨h1, h2, _⟩ := clear_loop c (c.props.filter fun p => c.cached p) hs
    exact fr _ h1 h2
  | poke f => exact ⟨le_rfl, hs, fun _ _ _ => rfl⟩
  | nextYear =>
    obtain ⟨h1, h2, _, _⟩ := record_loop c c.props hs
    refine ⟨?_, h2, fun p y hy => h1.hist p y hy.ne⟩
    have := h1.yr
    show s.year ≤ (c.props.foldl (recordStep c) s).year + 1
    omega

/-! ## The properties -/

/-- **C12.** After any program, the history of every recorded property has an entry for
every year from the initial year to the current year, and only for those years and for
years given as inputs. -/
theorem C12_history_gap_free (c : Cls P V σ) (y0 : ℤ) (inputs : P → Option (Dict ℤ V))
    (hin : ∀ p d, inputs p = some d → Dict.WF d) (w : σ) (ops : List (Op P V σ)) :
    let s := run c (init y0 inputs w) ops
    ∀ p ∈ c.props, ∀ y,
      (y0 ≤ y → y ≤ s.year → y ∈ Dict.keys (history c s p).1) ∧
      (y ∈ Dict.keys (history c s p).1 →
        (y0 ≤ y ∧ y ≤ s.year) ∨ ∃ d, inputs p = some d ∧ y ∈ Dict.keys d) := by
  intro s p hp y
  have h : Inv c y0 inputs s := inv_run (inv_init c y0 inputs hin w) ops
  -- the history returned has the stored entries plus the current year
  have hk : y ∈ Dict.keys (history c s p).1 ↔
      y = s.year ∨ (Dict.get? (s.hist p) y).isSome := by
    unfold history
    rcases hg : Dict.get? (s.hist p) s.year with _ | v
    · simp only
      split
      · simp only [St.record, if_true, Dict.mem_keys_set, Dict.get?_isSome]
      · simp only [Dict.mem_keys_set, Dict.get?_isSome]
    · simp only
      rw [← Dict.get?_isSome]
      constructor
      · exact .inr
      · rintro (rfl | h)
        · simp [hg]
        · exact h
  rw [hk]
  constructor
  · intro h1 h2
    rcases lt_or_eq_of_le h2 with h2 | h2
    · exact .inr (h.past p hp y h1 h2)
    · exact .inl h2
  · rintro (rfl | hy)
    · exact .inl ⟨h.le, le_rfl⟩
    · exact h.only p y hy

/-- **C13.** A value supplied through `inputs` for year `y` is what the property returns
whenever the ledger is in year `y`, and what its history records for `y` at all times,
whatever program ran before. -/
theorem C13_inputs_never_overwritten (c : Cls P V σ) (y0 : ℤ) (inputs : P → Option (Dict ℤ V))
    (hin : ∀ p d, inputs p = some d → Dict.WF d) (w : σ) (ops : List (Op P V σ))
    (p : P) (d : Dict ℤ V) (y : ℤ) (v : V) (hd : inputs p = some d) (hv : Dict.get? d y = some v) :
    let s := run c (init y0 inputs w) ops
    (s.year = y → (read c s p).1 = v) ∧ Dict.get? (history c s p).1 y = some v := by
  intro s
  have h : Inv c y0 inputs s := inv_run (inv_init c y0 inputs hin w) ops
  have hk := h.keep p d y v hd hv
  constructor
  · intro hy
    unfold read
    rw [hy, hk]
  · unfold history
    rcases hg : Dict.get? (s.hist p) s.year with _ | u
    · have hne : s.year ≠ y := by rintro e; rw [e, hk] at hg; cases hg
      simp only
      split
      · simp only [St.record, if_true]; rw [Dict.get?_set_ne _ _ hne]; exact hk
      · simp only; rw [Dict.get?_set_ne _ _ hne]; exact hk
    · exact hk

/-- **C13** (no leakage). An input for another year does not affect this year: in a year
without input for `p`, assigning to a property without custom setter takes effect. -/
theorem C13_set_takes_effect (c : Cls P V σ) (s : St P V σ) (p : P) (v : V)
    (hno : s.isInput p = false) (hset : c.fset p = none) :
    (read c (set c s p v) p).1 = v := by
  have : set c s p v = s.record p v := by simp [set, hno, hset]
  rw [this]
  unfold read
  have hy : (s.record p v).year = s.year := rfl
  rw [hy, get?_record]
  simp

/-- **C14.** Once the ledger has advanced past year `y`, the recorded value for `y` of
every property never changes again, and it is the value the property had (by a read)
at the moment of advancing. -/
theorem C14_past_immutable (c : Cls P V σ) (y0 : ℤ) (inputs : P → Option (Dict ℤ V))
    (hin : ∀ p d, inputs p = some d → Dict.WF d) (w : σ) (ops later : List (Op P V σ))
    (p : P) (y : ℤ) :
    let s := run c (init y0 inputs w) ops
    y < s.year →
    Dict.get? (history c (run c s later) p).1 y = Dict.get? (history c s p).1 y := by
  intro s hy
  have h : Inv c y0 inputs s := inv_run (inv_init c y0 inputs hin w) ops
  have stored : ∀ t : St P V σ, y < t.year →
      Dict.get? (history c t p).1 y = Dict.get? (t.hist p) y := by
    intro t ht
    unfold history
    rcases Dict.get? (t.hist p) t.year with _ | u
    · simp only
      split
      · simp only [St.record, if_true]; rw [Dict.get?_set_ne _ _ ht.ne']
      · simp only; rw [Dict.get?_set_ne _ _ ht.ne']
    · rfl
  have key : ∀ (l : List (Op P V σ)) (t : St P V σ), WFH t → y < t.year →
      y < (run c t l).year ∧ Dict.get? ((run c t l).hist p) y = Dict.get? (t.hist p) y := by
    intro l
    induction l with
    | nil => intro t _ ht; exact ⟨ht, rfl⟩
    | cons op l ih =>
      intro t hw ht
      obtain ⟨h1, h2, h3⟩ := step_year c hw op
      obtain ⟨k1, k2⟩ := ih (step c t op) h2 (lt_of_lt_of_le ht h1)
      exact ⟨k1, k2.trans (h3 p y ht)⟩
  obtain ⟨k1, k2⟩ := key later s h.wf hy
  rw [stored _ k1, stored _ hy, k2]

/-- **C14** (what is recorded). Advancing a year stores, for a property whose value was
already determined this year, exactly that value; for a ledger with a single recorded
property, exactly the value a read would have returned. -/
theorem C14_records_current_value (c : Cls P V σ) (s : St P V σ) (hs : WFH s) (p : P) :
    (∀ v, Dict.get? (s.hist p) s.year = some v →
      (read c s p).1 = v ∧ Dict.get? ((nextYear c s).hist p) s.year = some v) ∧
    (c.props = [p] → Dict.get? ((nextYear c s).hist p) s.year = some (read c s p).1) ∧
    (nextYear c s).year = s.year + 1 := by
  obtain ⟨h1, h2, h3, h4⟩ := record_loop c c.props hs
  refine ⟨?_, ?_, ?_⟩
  · intro v hv
    exact ⟨by unfold read; rw [hv], h3 p _ v hv⟩
  · intro hp
    unfold nextYear
    rw [hp]
    simp only [List.foldl_cons, List.foldl_nil]
    unfold recordStep
    rcases hg : Dict.get? (s.hist p) s.year with _ | v
    · simp only
      rw [get?_record, (read_props c hs p).1.yr]; simp
    · simp only [hg]
      unfold read; rw [hg]
  · show (c.props.foldl (recordStep c) s).year + 1 = _
    rw [h1.yr]

/-- Operations that may not disturb the cached value of `p` within a year: anything but
assigning or deleting `p`, clearing caches and advancing the year. -/
def Quiet (p : P) : Op P V σ → Prop
  | .set q _ => q ≠ p
  | .delete q => q ≠ p
  | .nextYear => False
  | .clearCache => False
  | _ => True

/-- **C15.** After a cached property has been read, every later read in the same year
returns the same value and changes nothing at all (so its getter is not run again),
whatever other operations and changes to the rest of the program happen in between,
short of assigning/deleting it, clearing the caches or advancing the year. -/
theorem C15_cached_stable (c : Cls P V σ) (s : St P V σ) (hs : WFH s) (p : P)
    (hc : c.cached p = true) (ops : List (Op P V σ)) (hq : ∀ op ∈ ops, Quiet p op) :
    let s' := run c (read c s p).2 ops
    (read c s' p).1 = (read c s p).1 ∧ (read c s' p).2 = s' := by
  intro s'
  have hread : ∀ t : St P V σ, ∀ v, Dict.get? (t.hist p) t.year = some v →
      read c t p = (v, t) := by
    intro t v h; unfold read; rw [h]
  have h0 : Dict.get? ((read c s p).2.hist p) s.year = some (read c s p).1 := by
    unfold read
    rcases hg : Dict.get? (s.hist p) s.year with _ | v
    · simp only [hc, if_true]
      rw [get?_record]; simp
    · simpa using hg
  have key : ∀ (l : List (Op P V σ)) (t : St P V σ) (v : V), WFH t → (∀ op ∈ l, Quiet p op) →
      Dict.get? (t.hist p) t.year = some v →
      Dict.get? ((run c t l).hist p) (run c t l).year = some v := by
    intro l
    induction l with
    | nil => intro t v _ _ h; exact h
    | cons op l ih =>
      intro t v hw hl hv
      have hop := hl op (by simp)
      have hl' : ∀ o ∈ l, Quiet p o := fun o ho => hl o (List.mem_cons_of_mem _ ho)
      have one : WFH (step c t op) ∧
          Dict.get? ((step c t op).hist p) (step c t op).year = some v := by
        cases op with
        | read q =>
          obtain ⟨h1, h2, h3⟩ := read_props c hw q
          exact ⟨h2, by show Dict.get? ((read c t q).2.hist p) (read c t q).2.year = _
                        rw [h1.yr]; exact h3 p _ v hv⟩
        | history q =>
          obtain ⟨h1, h2, h3⟩ := history_props c hw q
          exact ⟨h2, by show Dict.get? ((history c t q).2.hist p) (history c t q).2.year = _
                        rw [h1.yr]; exact h3 p _ v hv⟩
        | set q u =>
          obtain ⟨h1, h2, _, h4⟩ := set_props c hw q u
          refine ⟨h2, ?_⟩
          show Dict.get? ((set c t q u).hist p) (set c t q u).year = _
          rw [h1.yr, h4 p (Ne.symm hop)]; exact hv
        | delete q =>
          obtain ⟨h1, h2, _, h4⟩ := delete_props c hw q
          refine ⟨h2, ?_⟩
          show Dict.get? ((delete c t q).hist p) (delete c t q).year = _
          rw [h1.yr, h4 p (Ne.symm hop)]; exact hv
        | nextYear => exact hop.elim
        | clearCache => exact hop.elim
        | poke f => exact ⟨hw, hv⟩
      exact ih (step c t op) v one.1 hl' one.2
  obtain ⟨h1, h2, _⟩ := read_props c hs p
  have := key ops (read c s p).2 _ h2 hq (by rw [h1.yr]; exact h0)
  rw [hread s' _ this]
  exact ⟨rfl, rfl⟩

/-- **C15** (assignment and deletion). After any program: if the year's value was given as an input,
assigning or deleting it does nothing. Otherwise an assigned value is what is read from then on, and a
deleted one is gone; a property with its own setter or deleter runs that and has nothing on record, so
that it is computed when next read. No other property's record changes, and no other year's. -/
theorem C15_assign (c : Cls P V σ) (y0 : ℤ) (inputs : P → Option (Dict ℤ V))
    (hin : ∀ p d, inputs p = some d → Dict.WF d) (w : σ) (ops : List (Op P V σ)) (p : P) (v : V) :
    let s := run c (init y0 inputs w) ops
    let given := ∃ d, inputs p = some d ∧ s.year ∈ Dict.keys d
    (given → set c s p v = s ∧ delete c s p = s) ∧
    (¬ given →
      (c.fset p = none → read c (set c s p v) p = (v, set c s p v) ∧ (set c s p v).world = s.world) ∧
      (∀ f, c.fset p = some f → Dict.get? ((set c s p v).hist p) s.year = none ∧
        (set c s p v).world = f v s.world) ∧
      Dict.get? ((delete c s p).hist p) s.year = none ∧
      (delete c s p).world = (match c.fdel p with
        | some f => f s.world
        | none => s.world) ∧
      ∀ t, t = set c s p v ∨ t = delete c s p → t.year = s.year ∧ t.inputs = s.inputs ∧
        (∀ q, q ≠ p → t.hist q = s.hist q) ∧
        ∀ y, y ≠ s.year → Dict.get? (t.hist p) y = Dict.get? (s.hist p) y) := by
  intro s given
  have hs : Inv c y0 inputs s := inv_run (inv_init c y0 inputs hin w) ops
  have hg : s.isInput p = true ↔ given := by
    simp only [St.isInput, given, hs.inp]
    cases hi : inputs p with
    | none => simp
    | some d => simp [Dict.get?_isSome]
  have hdrop : ∀ y, Dict.get? ((s.drop p).hist p) y
      = if y = s.year then none else Dict.get? (s.hist p) y := by
    intro y
    have := get?_drop hs.wf p p y
    simpa using this
  have hother : ∀ q, q ≠ p → (s.drop p).hist q = s.hist q := by
    intro q hq; simp only [St.drop, if_neg hq]
  refine ⟨fun g => ?_, fun g => ?_⟩
  · simp only [set, delete, if_pos (hg.2 g), and_self]
  · have hno : ¬ s.isInput p = true := fun e => g (hg.1 e)
    refine ⟨?_, ?_, ?_, ?_, ?_⟩
    · intro hf
      have e : set c s p v = s.record p v := by simp only [set, if_neg hno, hf]
      rw [e]
      refine ⟨?_, rfl⟩
      have : Dict.get? ((s.record p v).hist p) (s.record p v).year = some v := by
        rw [get?_record]; simp [St.record]
      unfold read
      rw [this]
    · intro f hf
      simp only [set, if_neg hno, hf]
      exact ⟨by rw [hdrop, if_pos rfl], trivial⟩
    · simp only [delete, if_neg hno]
      cases c.fdel p <;> simp only [hdrop, if_true]
    · simp only [delete, if_neg hno]
      cases c.fdel p <;> rfl
    · rintro t (rfl | rfl)
      · simp only [set, if_neg hno]
        cases c.fset p with
        | none =>
          refine ⟨rfl, rfl, fun q hq => by simp only [St.record, if_neg hq], fun y hy => ?_⟩
          rw [get?_record]; simp [hy]
        | some f => exact ⟨rfl, rfl, hother, fun y hy => by simp only [hdrop, if_neg hy]⟩
      · simp only [delete, if_neg hno]
        cases c.fdel p with
        | none => exact ⟨rfl, rfl, hother, fun y hy => by rw [hdrop, if_neg hy]⟩
        | some f => exact ⟨rfl, rfl, hother, fun y hy => by simp only [hdrop, if_neg hy]⟩

/-- **C15** (freshness). In a new year, and after `clear_cache`, a property without an
input for that year is computed afresh from the current state of the program. -/
theorem C15_fresh_after_next_year (c : Cls P V σ) (y0 : ℤ) (inputs : P → Option (Dict ℤ V))
    (hin : ∀ p d, inputs p = some d → Dict.WF d) (w : σ) (ops : List (Op P V σ)) (p : P) :
    let s := run c (init y0 inputs w) ops
    let t := nextYear c s
    (t.isInput p = false → (read c t p).1 = (c.fget p t.year t.world).1) ∧
    (s.isInput p = false → p ∈ c.props → c.cached p = true →
      Dict.get? ((clearCache c s).hist p) s.year = none ∧
      (read c (clearCache c s) p).1 = (c.fget p s.year (clearCache c s).world).1) := by
  intro s t
  have hs : Inv c y0 inputs s := inv_run (inv_init c y0 inputs hin w) ops
  have hyear := (C14_records_current_value c s hs.wf p).2.2
  have fresh : ∀ u : St P V σ, Dict.get? (u.hist p) u.year = none →
      (read c u p).1 = (c.fget p u.year u.world).1 := by
    intro u h
    unfold read; rw [h]; simp only; split <;> rfl
  constructor
  · intro hno
    apply fresh
    by_contra hc
    obtain ⟨v, hv⟩ := Option.ne_none_iff_exists'.1 hc
    -- the stored entries of `t` are those of the recording loop, which are ≤ s.year or inputs
    have hsome : (Dict.get? (t.hist p) t.year).isSome := by simp [hv]
    obtain ⟨h1, h2, h3, h4⟩ := record_loop c c.props hs.wf
    have h' : Inv c y0 inputs (c.props.foldl (recordStep c) s) :=
      hs.frame h1 h2 fun q _ v hv => h3 q _ v hv
    rcases h'.only p t.year hsome with ⟨_, hle⟩ | ⟨d, hd, hk⟩
    · rw [h1.yr] at hle
      have : t.year = s.year + 1 := hyear
      omega
    · have ht : t.inputs = inputs := h'.inp
      obtain ⟨u, hu⟩ := Dict.mem_keys_iff.1 hk
      have := isInput_of (s := t) (p := p) (ht ▸ hd) hu
      rw [hno] at this
      cases this
  · intro hno hp hcach
    have key : ∀ (l : List P) (u : St P V σ), WFH u → u.isInput p = false →
        (p ∈ l ∨ Dict.get? (u.hist p) u.year = none) →
        Dict.get? ((l.foldl (delete c) u).hist p) u.year = none := by
      intro l
      induction l with
      | nil => rintro u _ _ (h | h); · simp at h
               exact h
      | cons q l ih =>
        intro u hw hi hor
        obtain ⟨h1, h2, _, h4⟩ := delete_props c hw q
        rw [List.foldl_cons]
        have := ih (delete c u q) h2 (by rw [isInput_frame h1]; exact hi)
        rw [h1.yr] at this
        apply this
        by_cases hqp : q = p
        · subst hqp
          right
          have hd : (delete c u q).hist = (u.drop q).hist := by
            unfold delete
            rw [hi]
            cases c.fdel q <;> rfl
          rw [hd, get?_drop hw]; simp
        · rcases hor with h | h
          · rcases List.mem_cons.1 h with h | h
            · exact absurd h.symm hqp
            · exact .inl h
          · right; rw [h4 p (Ne.symm hqp)]; exact h
    obtain ⟨k1, _, _⟩ := clear_loop c (c.props.filter fun p => c.cached p) hs.wf
    have hnone := key (c.props.filter fun p => c.cached p) s hs.wf hno
      (.inl (List.mem_filter.2 ⟨hp, hcach⟩))
    refine ⟨hnone, ?_⟩
    have hy : (clearCache c s).year = s.year := k1.yr
    have := fresh (clearCache c s) (by rw [hy]; exact hnone)
    rw [hy] at this
    exact this

/-! Non-vacuity: a ledger with one cached and one plain property, started in 2000 with an
input for 2001, over a program that pokes, reads, sets and advances. -/

/-- A concrete class: property 0 plain, property 1 cached, both return the world. -/
def demoCls : Cls (Fin 2) ℤ ℤ :=
  { props := [0, 1], cached := fun p => p = 1, fget := fun _ _ w => (w, w + 1),
    fset := fun _ => none, fdel := fun _ => none }

example :
    let s := run demoCls (init 2000 (fun p => if p = 0 then some [(2001, 7)] else none) 5)
      [Op.read 1, .poke (· + 10), .nextYear, .set 0 99, .read 1];
    s.year = 2001 ∧ (read demoCls s 0).1 = 7 ∧
      (history demoCls s 0).1 = [(2001, 7), (2000, 16)] ∧
      (history demoCls s 1).1 = [(2000, 5), (2001, 17)] := by decide

example : ∀ p d, (fun p : Fin 2 => if p = 0 then some [((2001 : ℤ), (7 : ℤ))] else none) p = some d →
    Dict.WF d := by
  intro p d h
  by_cases hp : p = 0
  · simp only [hp, if_true, Option.some.injEq] at h; subst h; simp [Dict.WF]
  · simp [hp] at h

end Forecaster.Ledger
