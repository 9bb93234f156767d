import Verif.Props.Recorded

/-! Closing the years of several objects, one after the other: helper lemmas for
`Verif/Props/RecordedForecast.lean`. -/

namespace Forecaster.Recorded

open Forecaster

variable {O κ V σ : Type} [DecidableEq O] [DecidableEq κ]

/-- Close the objects' years in order; each may then change the rest of the program. -/
def closeAll (c : Sys O κ V σ) (n : ℕ) (adv : O → σ → σ) : List O → St O κ V σ →
    Option PyErr × St O κ V σ
  | [], s => (none, s)
  | o :: os, s =>
    match nextYear c n o s with
    | (none, s') => closeAll c n adv os { s' with world := adv o s'.world }
    | (some e, s') => (some e, s')

/-- Closing one object's year, and the values of everything that does not read it. -/
theorem close_one {c : Sys O κ V σ} {rank : κ → ℕ} (hc : Acyclic c rank) {n : ℕ}
    (hn : ∀ k, rank k < n) (adv : O → σ → σ)
    (hyear : ∀ k years years' w, years (c.obj k) = years' (c.obj k) →
      c.fget k years w = c.fget k years' w)
    (hadv : ∀ o k years w, c.obj k ≠ o → c.fget k years (adv o w) = c.fget k years w)
    {s u : St O κ V σ} {o : O} (h : nextYear c n o s = (none, u)) (D : κ → Prop)
    (hobj : ∀ k, D k → c.obj k ≠ o) (hin : ∀ k, D k → (c.fget k s.year s.world).Within D) (k : κ)
    (hk : D k) :
    val c rank { u with world := adv o u.world } k = val c rank s k := by
  have h0 : (nextYear c n o s).1 = none := by rw [h]
  have hall := (C81_next_year_completes c rank hc n hn s o).1.1 h0
  have e1 := (recordAll_eq hc hn s (c.props o)).1 hall
  have et : u = (grow c rank s (recordsAll c rank s (c.props o))).advance o := by
    have : (nextYear c n o s).2 = u := by rw [h]
    rw [← this]
    simp only [nextYear, e1]
  rw [et, val_agree (D := D) (s := grow c rank s (recordsAll c rank s (c.props o))) _ hk,
    val_grow hc s (closed_recordsAll hc s _)]
  refine ⟨fun _ _ => rfl, fun q hq => ?_, fun q hq => ?_, hin⟩
  · show (if c.obj q = o then _ else s.year (c.obj q)) = s.year (c.obj q)
    rw [if_neg (hobj q hq)]
  · show c.fget q _ (adv o s.world) = c.fget q s.year s.world
    rw [hadv o q _ _ (hobj q hq)]
    refine hyear q _ _ _ ?_
    show (if c.obj q = o then _ else s.year (c.obj q)) = s.year (c.obj q)
    rw [if_neg (hobj q hq)]

theorem closeAll_closed {c : Sys O κ V σ} {rank : κ → ℕ} (hc : Acyclic c rank) {n : ℕ}
    (hn : ∀ k, rank k < n) (hown : Owned c) (adv : O → σ → σ)
    (hyear : ∀ k years years' w, years (c.obj k) = years' (c.obj k) →
      c.fget k years w = c.fget k years' w)
    (hadv : ∀ o k years w, c.obj k ≠ o → c.fget k years (adv o w) = c.fget k years w)
    (lev : O → ℕ) (I : σ → Prop) (hI : ∀ o w, I w → I (adv o w)) (os : List O) :
    ∀ (D : κ → Prop) {s t : St O κ V σ}, os.Nodup → os.Pairwise (fun o o' => lev o ≤ lev o') →
    I s.world →
    (∀ k years w, I w → D k → (c.fget k years w).Within fun q => D q ∧
      (c.obj q = c.obj k ∨ (c.obj k ∈ os ∧ lev (c.obj k) < lev (c.obj q)))) →
    closeAll c n adv os s = (none, t) →
    (∀ o ∈ os, ∀ k ∈ c.props o, D k → ∃ v, val c rank s k = .ok v ∧
      Dict.get? (t.hist k) (s.year o) = some v) ∧
    (∀ k y v, Dict.get? (s.hist k) y = some v → Dict.get? (t.hist k) y = some v) ∧
    (∀ k y, y < s.year (c.obj k) → Dict.get? (t.hist k) y = Dict.get? (s.hist k) y) ∧
    (∀ o, t.year o = if o ∈ os then s.year o + 1 else s.year o) ∧
    t.inputs = s.inputs ∧ t.world = os.foldl (fun w o => adv o w) s.world ∧
    (∀ k, D k → c.obj k ∉ os → val c rank t k = val c rank s k) := by
  induction os with
  | nil =>
    intro D s t _ _ _ _ h
    cases h
    exact ⟨fun o h => (by cases h), fun _ _ _ h => h, fun _ _ _ => rfl, fun o => (by simp), rfl, rfl,
      fun _ _ _ => rfl⟩
  | cons o os ih =>
    intro D s t hnd hlev hIs hD h
    rw [List.nodup_cons] at hnd
    rw [List.pairwise_cons] at hlev
    simp only [closeAll] at h
    cases hr : nextYear c n o s with
    | mk x u =>
      rw [hr] at h
      cases x with
      | some e => simp at h
      | none =>
        simp only at h
        have h0 : (nextYear c n o s).1 = none := by rw [hr]
        have ht : (nextYear c n o s).2 = u := by rw [hr]
        obtain ⟨r1, r2, r3, r4, r5, r6, r7⟩ := C81_records_the_values c rank hc n hn s o h0
        rw [ht] at r1 r2 r4 r5 r6 r7
        have mono : ∀ {q k : κ}, D k → c.obj k ≠ o → D q ∧
            (c.obj q = c.obj k ∨ (c.obj k ∈ o :: os ∧ lev (c.obj k) < lev (c.obj q))) →
            (D q ∧ c.obj q ≠ o) ∧
              (c.obj q = c.obj k ∨ (c.obj k ∈ os ∧ lev (c.obj k) < lev (c.obj q))) := by
          rintro q k hk hko ⟨hq, e | ⟨hm, hl⟩⟩
          · exact ⟨⟨hq, by rw [e]; exact hko⟩, .inl e⟩
          · have hm' := (List.mem_cons.1 hm).resolve_left hko
            refine ⟨⟨hq, ?_⟩, .inr ⟨hm', hl⟩⟩
            intro e
            have := hlev.1 _ hm'
            rw [e] at hl
            omega
        have within_mono : ∀ {P Q : κ → Prop} (p : Prog κ V), (∀ q, P q → Q q) → p.Within P →
            p.Within Q := by
          intro P Q p hPQ
          induction p with
          | done r => intro _; trivial
          | ask q next ihp => exact fun hp => ⟨hPQ q hp.1, fun v => ihp v (hp.2 v)⟩
          | past q y next ihp => exact fun hp => ⟨hPQ q hp.1, fun v => ihp v (hp.2 v)⟩
        have hD' : ∀ k years w, I w → D k ∧ c.obj k ≠ o → (c.fget k years w).Within fun q =>
            (D q ∧ c.obj q ≠ o) ∧
              (c.obj q = c.obj k ∨ (c.obj k ∈ os ∧ lev (c.obj k) < lev (c.obj q))) :=
          fun k years w hw hk => within_mono _ (fun q hq => mono hk.1 hk.2 hq) (hD k years w hw hk.1)
        have hval : ∀ k, D k → c.obj k ≠ o →
            val c rank { u with world := adv o u.world } k = val c rank s k := by
          intro k hk hko
          refine close_one hc hn adv hyear hadv hr (fun q => D q ∧ c.obj q ≠ o) (fun q hq => hq.2)
            (fun q hq => within_mono _ (fun _ hx => hx.1) (hD' q s.year s.world hIs hq)) k ⟨hk, hko⟩
        obtain ⟨a1, a2, a3, a4, a5, a6, a7⟩ := ih (fun k => D k ∧ c.obj k ≠ o)
          (s := { u with world := adv o u.world }) hnd.2 hlev.2 (hI o _ (by rw [r6]; exact hIs)) hD' h
        have hkeep : ∀ k y v, Dict.get? (s.hist k) y = some v → Dict.get? (u.hist k) y = some v := by
          intro k y v hv
          by_cases hy : y = s.year (c.obj k)
          · subst hy; exact r4 k v hv
          · rw [r2 k y hy]; exact hv
        refine ⟨?_, ?_, ?_, ?_, ?_, ?_, ?_⟩
        · intro o' ho' k hk hDk
          have hobj : c.obj k = o' := hown o' k hk
          rcases List.mem_cons.1 ho' with rfl | hm
          · obtain ⟨v, hv, h2⟩ := r1 k hk
            rw [read_eq hc (hn k)] at hv
            refine ⟨v, hv, a2 k _ v ?_⟩
            rw [← hobj]; exact h2
          · have hne : c.obj k ≠ o := by rw [hobj]; rintro rfl; exact hnd.1 hm
            obtain ⟨v, hv, h2⟩ := a1 o' hm k hk ⟨hDk, hne⟩
            rw [hval k hDk hne] at hv
            refine ⟨v, hv, ?_⟩
            have : u.year o' = s.year o' := by rw [r5, if_neg (by rw [← hobj]; exact hne)]
            rw [← this]; exact h2
        · intro k y v hv
          exact a2 k y v (hkeep k y v hv)
        · intro k y hy
          rw [a3 k y]
          · exact r2 k y (ne_of_lt hy)
          · show y < u.year (c.obj k)
            rw [r5]
            split
            · rename_i e; rw [e] at hy; omega
            · exact hy
        · intro o'
          rw [a4 o']
          show (if o' ∈ os then u.year o' + 1 else u.year o') = _
          rw [r5]
          by_cases e : o' = o
          · subst e
            rw [if_neg hnd.1, if_pos rfl, if_pos List.mem_cons_self]
          · by_cases hm : o' ∈ os
            · rw [if_pos hm, if_neg e, if_pos (List.mem_cons_of_mem _ hm)]
            · rw [if_neg hm, if_neg e, if_neg]
              intro hx
              rcases List.mem_cons.1 hx with hx | hx
              · exact e hx
              · exact hm hx
        · rw [a5]; exact r7
        · rw [a6]
          show os.foldl _ (adv o u.world) = _
          rw [r6]; rfl
        · intro k hk hno
          have hne : c.obj k ≠ o := fun e => hno (by rw [e]; exact List.mem_cons_self)
          rw [a7 k ⟨hk, hne⟩ fun hm => hno (List.mem_cons_of_mem _ hm), hval k hk hne]

end Forecaster.Recorded
