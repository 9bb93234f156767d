import Verif.Lemmas.RecordedHousehold
import Mathlib.Algebra.Order.Ring.Rat
import Mathlib.Data.Rat.Floor

/-!
# C82: the histories of accounts with inputs, caches and owners

The recursion limit `n` is at least 5 everywhere: no property needs more than five nested reads.
-/

namespace Forecaster.Recorded

open Forecaster

variable {N A K : Type} [DecidableEq N] [DecidableEq A] [Field K] [LinearOrder K]
  [IsStrictOrderedRing K]

/-- Whether a dict of inputs has an entry for a year. -/
def inYear {V : Type} (d : Option (Dict ℤ V)) (y : ℤ) : Prop :=
  ∃ b v, d = some b ∧ Dict.get? b y = some v

/-- The balance on record for a year is the one on record for the year before, with that year's
transactions, grown at the rate on record for the year. -/
def Law (G : K → K → K) (a : A) (s : HSt N A K) (y : ℤ) (v : Val K) : Prop :=
  ∃ b r d, Dict.get? (s.hist (.account a .balance)) (y - 1) = some (.num b) ∧
    Dict.get? (s.hist (.account a .rate)) y = some (.num r) ∧
    Dict.get? (s.hist (.account a .transactions)) (y - 1) = some (.txns d) ∧
    v = .num (grown (G r) b d)

/-- What holds of an account throughout. -/
structure Rec (G : K → K → K) (a : A) (y0 : ℤ) (inp : Option (Dict ℤ (Val K))) (s : HSt N A K) :
    Prop where
  le : y0 ≤ s.year (.account a)
  wf : ∀ k, Dict.WF (s.hist k)
  inputs : s.inputs (.account a .balance) = inp
  growth : s.world.growth a = G
  only : ∀ y v, Dict.get? (s.hist (.account a .balance)) y = some v →
    y ≤ s.year (.account a) ∨ inYear inp y
  past : ∀ y, y0 ≤ y → y < s.year (.account a) →
    ∃ v, Dict.get? (s.hist (.account a .balance)) y = some v
  law : ∀ y v, y0 < y → y ≤ s.year (.account a) → ¬ inYear inp y →
    Dict.get? (s.hist (.account a .balance)) y = some v → Law G a s y v

/-- Nothing that matters to the account changes. -/
theorem Rec.same {G : K → K → K} {a : A} {y0 : ℤ} {inp : Option (Dict ℤ (Val K))} {s t : HSt N A K}
    (h : Rec G a y0 inp s) (hy : t.year (.account a) = s.year (.account a))
    (hwf : ∀ k, Dict.WF (t.hist k))
    (hi : t.inputs (.account a .balance) = s.inputs (.account a .balance))
    (hg : t.world.growth a = s.world.growth a)
    (hb : ∀ y, Dict.get? (t.hist (.account a .balance)) y = Dict.get? (s.hist (.account a .balance)) y)
    (hr : ∀ y, Dict.get? (t.hist (.account a .rate)) y = Dict.get? (s.hist (.account a .rate)) y)
    (hd : ∀ y, y < s.year (.account a) → Dict.get? (t.hist (.account a .transactions)) y
      = Dict.get? (s.hist (.account a .transactions)) y) : Rec G a y0 inp t := by
  refine ⟨by rw [hy]; exact h.le, hwf, hi.trans h.inputs, hg.trans h.growth, ?_, ?_, ?_⟩
  · intro y v hv
    rw [hb] at hv
    rw [hy]; exact h.only y v hv
  · intro y h1 h2
    rw [hy] at h2
    rw [hb]; exact h.past y h1 h2
  · intro y v h1 h2 h3 hv
    rw [hy] at h2
    rw [hb] at hv
    obtain ⟨b, r, d, e1, e2, e3, e4⟩ := h.law y v h1 h2 h3 hv
    exact ⟨b, r, d, by rw [hb]; exact e1, by rw [hr]; exact e2,
      by rw [hd _ (by omega)]; exact e3, e4⟩

theorem Rec.read {G : K → K → K} {a : A} {y0 : ℤ} {inp : Option (Dict ℤ (Val K))} {s : HSt N A K}
    (h : Rec G a y0 inp s) {n : ℕ} (hn : 5 ≤ n) (k : Key N A) :
    Rec G a y0 inp (read household n k s).2 := by
  have g := (read_grows household n k s).1
  have e : (Recorded.read household n k s).2
      = grow household hrank s (fills household hrank s k) := by rw [read_val hn]
  have hcl := closed_union household_acyclic (closed_empty household hrank s) k
  rw [Set.empty_union] at hcl
  have hpast := g.past
  have hstay := g.stays
  refine ⟨by rw [g.year]; exact h.le, g.wf h.wf, by rw [g.inputs]; exact h.inputs,
    by rw [g.world]; exact h.growth, ?_, ?_, ?_⟩
  · intro y v hv
    rw [g.year]
    by_cases hy : y = s.year (.account a)
    · exact .inl (le_of_eq hy)
    · rw [hpast _ _ hy] at hv; exact h.only y v hv
  · intro y h1 h2
    rw [g.year] at h2
    rw [hpast (.account a .balance) y (by show y ≠ s.year (.account a); omega)]
    exact h.past y h1 h2
  · intro y v h1 h2 h3 hv
    rw [g.year] at h2
    by_cases hy : y = s.year (.account a)
    · subst hy
      cases hnow : s.now household (.account a .balance) with
      | some w =>
        have hw := hstay _ _ hnow
        rw [St.now, g.year] at hw
        obtain rfl : w = v := by
          have := hw.symm.trans hv
          exact Option.some.inj this
        obtain ⟨b, r, d, e1, e2, e3, e4⟩ := h.law _ w h1 h2 h3 hnow
        refine ⟨b, r, d, ?_, ?_, ?_, e4⟩
        · rw [hpast (.account a .balance) _ (by show _ ≠ s.year (.account a); omega)]; exact e1
        · have := hstay (.account a .rate) (.num r) e2
          rwa [St.now, g.year] at this
        · rw [hpast (.account a .transactions) _ (by show _ ≠ s.year (.account a); omega)]; exact e3
      | none =>
        rw [e] at hv
        obtain ⟨-, g2, g3, g4⟩ := now_grow household hrank s (fills household hrank s k)
          (.account a .balance)
        have hv' : (grow household hrank s (fills household hrank s k)).now household
          (.account a .balance) = some v := hv
        have hin : Key.account a .balance ∈ fills household hrank s k := by
          by_contra hcon
          rw [g2 hnow hcon] at hv'; cases hv'
        have hval : hval s (.account a .balance) = .ok v := by
          cases hx : val household hrank s (.account a .balance) with
          | ok w => rw [g3 hnow hin w hx] at hv'; cases hv'; exact hx
          | error e => rw [g4 hnow e hx] at hv'; cases hv'
        obtain ⟨b, r, d, e1, e2, e3, e4⟩ := hval_balance hnow hval
        refine ⟨b, r, d, ?_, ?_, ?_, ?_⟩
        · rw [hpast (.account a .balance) _ (by show _ ≠ s.year (.account a); omega)]; exact e1
        · have hr : ((Recorded.read household n k s).2).now household (.account a .rate)
              = some (.num r) := by
            cases hrn : s.now household (.account a .rate) with
            | some w =>
              have := (val_some (rank := hrank) hrn).1
              have e2' := this.symm.trans e2
              cases e2'
              exact hstay _ _ hrn
            | none =>
              rw [e]
              exact (now_grow household hrank s _ _).2.2.1 hrn
                (hcl _ hin v hval _ (rate_filled hnow hrn e1) rfl) _ e2
          rwa [St.now, g.year] at hr
        · rw [hpast (.account a .transactions) _ (by show _ ≠ s.year (.account a); omega)]; exact e3
        · rw [e4, h.growth]
    · have hb := hpast (.account a .balance) y hy
      rw [hb] at hv
      obtain ⟨b, r, d, e1, e2, e3, e4⟩ := h.law y v h1 h2 h3 hv
      refine ⟨b, r, d, ?_, ?_, ?_, e4⟩
      · rw [hpast (.account a .balance) _ (by show _ ≠ s.year (.account a); omega)]; exact e1
      · rw [hpast (.account a .rate) _ hy]; exact e2
      · rw [hpast (.account a .transactions) _ (by show _ ≠ s.year (.account a); omega)]; exact e3

/-- Recording something that is not the balance or the rate, or is on record already. -/
theorem Rec.record {G : K → K → K} {a : A} {y0 : ℤ} {inp : Option (Dict ℤ (Val K))} {s : HSt N A K}
    (h : Rec G a y0 inp s) (k : Key N A) (v : Val K)
    (hk : (k ≠ .account a .balance ∧ k ≠ .account a .rate) ∨ s.now household k = some v) :
    Rec G a y0 inp (s.record household k v) := by
  have hq : ∀ q, (q ≠ k ∨ s.now household k = some v) → ∀ y,
      Dict.get? ((s.record household k v).hist q) y = Dict.get? (s.hist q) y := by
    intro q hq y
    simp only [St.record]
    split
    · rename_i e
      subst e
      have hv := hq.resolve_left (fun h => h rfl)
      by_cases hy : y = s.year ((household (N := N) (A := A) (K := K)).obj q)
      · subst hy; rw [Dict.get?_set_self]; exact hv.symm
      · rw [Dict.get?_set_ne _ _ (Ne.symm hy)]
    · rfl
  refine h.same rfl ?_ rfl rfl (hq _ ?_) (hq _ ?_) ?_
  · intro q
    simp only [St.record]
    split
    · exact Dict.wf_set (h.wf _) _ _
    · exact h.wf q
  · exact hk.imp (fun h => h.1.symm) id
  · exact hk.imp (fun h => h.2.symm) id
  · intro y hy
    simp only [St.record]
    split
    · rename_i e
      subst e
      rw [Dict.get?_set_ne _ _ (by show s.year (.account a) ≠ y; omega)]
    · rfl

theorem Rec.recordAll {G : K → K → K} {a : A} {y0 : ℤ} {inp : Option (Dict ℤ (Val K))} {n : ℕ}
    (hn : 5 ≤ n) (ks : List (Key N A)) : ∀ {s : HSt N A K}, Rec G a y0 inp s →
    Rec G a y0 inp (recordAll household n ks s).2 := by
  induction ks with
  | nil => intro s h; exact h
  | cons k ks ih =>
    intro s h
    have one : Rec G a y0 inp (recordOne household n k s).2 := by
      simp only [recordOne]
      cases hnow : s.now household k with
      | some v => exact h
      | none =>
        have h1 := h.read hn k
        have h2 := (read_grows household n k s).2.1
        simp only
        cases hr : Recorded.read household n k s with
        | mk r t =>
          rw [hr] at h1 h2
          cases r with
          | error e => exact h1
          | ok v =>
            refine h1.record k v ?_
            by_cases hk : k ≠ .account a .balance ∧ k ≠ .account a .rate
            · exact .inl hk
            · refine .inr (h2 v rfl ?_)
              by_cases hb : k = .account a .balance
              · subst hb; rfl
              · have : k = .account a .rate := by
                  by_contra hcon; exact hk ⟨hb, hcon⟩
                subst this; rfl
    simp only [Recorded.recordAll]
    cases hr : recordOne household n k s with
    | mk r t =>
      rw [hr] at one
      cases r with
      | some e => exact one
      | none => exact ih one

theorem Rec.nextYear {G : K → K → K} {a : A} {y0 : ℤ} {inp : Option (Dict ℤ (Val K))} {n : ℕ}
    (hn : 5 ≤ n) {s : HSt N A K} (h : Rec G a y0 inp s) (o : Who N A) :
    Rec G a y0 inp (nextYear household n o s).2 := by
  have h1 := h.recordAll hn ((household (N := N) (A := A) (K := K)).props o)
  have h2 := (recordAll_grows household n ((household (N := N) (A := A) (K := K)).props o) s).2
  simp only [Recorded.nextYear]
  cases hr : Recorded.recordAll household n ((household (N := N) (A := A) (K := K)).props o) s with
  | mk r t =>
    rw [hr] at h1 h2
    cases r with
    | some e => exact h1
    | none =>
      replace h1 : Rec G a y0 inp t := h1
      simp only
      by_cases ho : o = .account a
      · subst ho
        have hy : (t.advance (.account a)).year (.account a) = t.year (.account a) + 1 := by
          simp [St.advance]
        refine ⟨by rw [hy]; have := h1.le; omega, h1.wf, h1.inputs, h1.growth, ?_, ?_, ?_⟩
        · intro y v hv
          rw [hy]
          rcases h1.only y v hv with h | h
          · exact .inl (by omega)
          · exact .inr h
        · intro y e1 e2
          rw [hy] at e2
          by_cases hlt : y < t.year (.account a)
          · exact h1.past y e1 hlt
          · obtain rfl : y = t.year (.account a) := by omega
            exact h2 rfl (.account a .balance) (mem_props _)
        · intro y v e1 e2 e3 hv
          rw [hy] at e2
          by_cases hle : y ≤ t.year (.account a)
          · exact h1.law y v e1 hle e3 hv
          · rcases h1.only y v hv with h | h
            · exact absurd h hle
            · exact absurd h e3
      · exact h1.same (by simp only [St.advance]; rw [if_neg (Ne.symm ho)]) h1.wf rfl rfl
          (fun _ => rfl) (fun _ => rfl) (fun _ _ => rfl)

/-- What deleting several properties does. -/
theorem deletes_hist {O κ V σ : Type} [DecidableEq O] [DecidableEq κ] (c : Sys O κ V σ) (l : List κ) :
    ∀ (s : St O κ V σ), (∀ k, Dict.WF (s.hist k)) →
    (l.foldl (fun s k => delete c k s) s).year = s.year ∧
    (l.foldl (fun s k => delete c k s) s).inputs = s.inputs ∧
    (l.foldl (fun s k => delete c k s) s).world = s.world ∧
    (∀ k, Dict.WF ((l.foldl (fun s k => delete c k s) s).hist k)) ∧
    (∀ k y, y ≠ s.year (c.obj k) →
      Dict.get? ((l.foldl (fun s k => delete c k s) s).hist k) y = Dict.get? (s.hist k) y) ∧
    (∀ k, k ∉ l → (l.foldl (fun s k => delete c k s) s).hist k = s.hist k) ∧
    (∀ k, k ∈ l → s.isInput c k = false →
      (l.foldl (fun s k => delete c k s) s).now c k = none) ∧
    (∀ k, s.now c k = none → (l.foldl (fun s k => delete c k s) s).now c k = none) := by
  induction l with
  | nil => intro s hs; exact ⟨rfl, rfl, rfl, hs, fun _ _ _ => rfl, fun _ _ => rfl, (by simp), fun _ h => h⟩
  | cons k l ih =>
    intro s hs
    have one : (delete c k s).year = s.year ∧ (delete c k s).inputs = s.inputs ∧
        (delete c k s).world = s.world ∧ (∀ q, Dict.WF ((delete c k s).hist q)) ∧
        (∀ q y, y ≠ s.year (c.obj q) →
          Dict.get? ((delete c k s).hist q) y = Dict.get? (s.hist q) y) ∧
        (∀ q, q ≠ k → (delete c k s).hist q = s.hist q) ∧
        (s.isInput c k = false → (delete c k s).now c k = none) ∧
        (∀ q, s.now c q = none → (delete c k s).now c q = none) := by
      unfold delete
      cases hi : s.isInput c k with
      | true => exact ⟨rfl, rfl, rfl, hs, fun _ _ _ => rfl, fun _ _ => rfl, by simp, fun _ h => h⟩
      | false =>
        simp only [Bool.false_eq_true, if_false]
        refine ⟨trivial, trivial, trivial, ?_, ?_, ?_, ?_, ?_⟩
        · intro q
          split
          · exact Dict.wf_del (hs k) _
          · exact hs q
        · intro q y hy
          split
          · rename_i e
            subst e
            rw [Dict.get?_del (hs q), if_neg (Ne.symm hy)]
          · rfl
        · intro q hq; rw [if_neg hq]
        · intro _
          simp only [St.now, if_true, Dict.get?_del (hs k)]
        · intro q hq
          simp only [St.now]
          split
          · rename_i e
            subst e
            rw [Dict.get?_del (hs q), if_pos rfl]
          · exact hq
    obtain ⟨a1, a2, a3, a4, a5, a6, a7, a8⟩ := one
    obtain ⟨b1, b2, b3, b4, b5, b6, b7, b8⟩ := ih _ a4
    simp only [List.foldl_cons]
    refine ⟨b1.trans a1, b2.trans a2, b3.trans a3, b4, ?_, ?_, ?_, fun q hq => b8 q (a8 q hq)⟩
    · intro q y hy
      exact (b5 q y (by rw [a1]; exact hy)).trans (a5 q y hy)
    · intro q hq
      rw [List.mem_cons, not_or] at hq
      exact (b6 q hq.2).trans (a6 q hq.1)
    · intro q hq hi
      have hi' : (delete c k s).isInput c q = false := by
        simp only [St.isInput, a1, a2]; exact hi
      by_cases hql : q ∈ l
      · exact b7 q hql hi'
      · obtain rfl : q = k := (List.mem_cons.1 hq).resolve_right hql
        exact b8 q (a7 hi)

theorem isInput_inYear {s : HSt N A K} {a : A} {inp : Option (Dict ℤ (Val K))}
    (h : s.inputs (.account a .balance) = inp) (hn : ¬ inYear inp (s.year (.account a))) :
    s.isInput household (.account a .balance) = false := by
  simp only [St.isInput, h]
  cases inp with
  | none => rfl
  | some b =>
    simp only
    cases hb : Dict.get? b (s.year ((household (N := N) (A := A) (K := K)).obj (Key.account a .balance))) with
    | none => rfl
    | some v => exact absurd ⟨b, v, rfl, hb⟩ hn

/-- Deleting the caches of an account or of a person. -/
theorem Rec.clearCache {G : K → K → K} {a : A} {y0 : ℤ} {inp : Option (Dict ℤ (Val K))}
    {s : HSt N A K} (h : Rec G a y0 inp s) (o : Who N A) :
    Rec G a y0 inp (clearCache household o s) := by
  obtain ⟨b1, b2, b3, b4, b5, b6, b7, -⟩ := deletes_hist household
    (((household (N := N) (A := A) (K := K)).props o).filter fun k => (household (N := N) (A := A) (K := K)).cached k) s h.wf
  by_cases ho : o = .account a
  · subst ho
    refine ⟨by rw [Recorded.clearCache, b1]; exact h.le, b4, by rw [Recorded.clearCache, b2]; exact h.inputs,
      by rw [Recorded.clearCache, b3]; exact h.growth, ?_, ?_, ?_⟩
    · intro y v hv
      rw [Recorded.clearCache, b1]
      by_cases hy : y = s.year (.account a)
      · exact .inl (le_of_eq hy)
      · rw [Recorded.clearCache, b5 _ _ hy] at hv; exact h.only y v hv
    · intro y e1 e2
      rw [Recorded.clearCache, b1] at e2
      rw [Recorded.clearCache, b5 (.account a .balance) y (by show y ≠ s.year (.account a); omega)]
      exact h.past y e1 e2
    · intro y v e1 e2 e3 hv
      rw [Recorded.clearCache, b1] at e2
      by_cases hy : y = s.year (.account a)
      · subst hy
        have := b7 (.account a .balance) (by simp [household, recordedProps, Key.isCached])
          (isInput_inYear h.inputs e3)
        rw [St.now, b1] at this
        rw [Recorded.clearCache] at hv
        have : some v = none := hv.symm.trans this
        cases this
      · rw [Recorded.clearCache, b5 _ _ hy] at hv
        obtain ⟨b, r, d, f1, f2, f3, f4⟩ := h.law y v e1 e2 e3 hv
        refine ⟨b, r, d, ?_, ?_, ?_, f4⟩
        · rw [Recorded.clearCache, b5 (.account a .balance) _ (by show _ ≠ s.year (.account a); omega)]; exact f1
        · rw [Recorded.clearCache, b5 (.account a .rate) _ hy]; exact f2
        · rw [Recorded.clearCache, b5 (.account a .transactions) _ (by show _ ≠ s.year (.account a); omega)]
          exact f3
  · have hno : ∀ p, Key.account a p ∉ ((household (N := N) (A := A) (K := K)).props o).filter fun k => (household (N := N) (A := A) (K := K)).cached k := by
      intro p hm
      have := household_owned (K := K) o _ (List.mem_filter.1 hm).1
      exact ho this.symm
    refine h.same (by rw [Recorded.clearCache, b1]) b4 (by rw [Recorded.clearCache, b2]) (by rw [Recorded.clearCache, b3])
      (fun y => ?_) (fun y => ?_) (fun y _ => ?_) <;> rw [Recorded.clearCache, b6 _ (hno _)]

/-- Operations that do not assign or delete the account's balance or rate, nor change how it
compounds. -/
def Leaves (G : K → K → K) (a : A) : HOp N A K → Prop
  | .set k _ => k ≠ .account a .balance ∧ k ≠ .account a .rate
  | .delete k => k ≠ .account a .balance ∧ k ≠ .account a .rate
  | .other f => ∀ w, w.growth a = G → (f w).growth a = G
  | _ => True

theorem Rec.edit {G : K → K → K} {a : A} {y0 : ℤ} {inp : Option (Dict ℤ (Val K))} {s t : HSt N A K}
    (h : Rec G a y0 inp s) {k : Key N A} (hk : k ≠ .account a .balance ∧ k ≠ .account a .rate)
    (hw : t.world = s.world) (g : t = s ∨ Edits household s t k) : Rec G a y0 inp t := by
  rcases g with rfl | g
  · exact h
  · refine h.same (by rw [g.year]) ?_ (by rw [g.inputs]) (by rw [hw])
      (fun y => by rw [g.others _ hk.1.symm]) (fun y => by rw [g.others _ hk.2.symm]) ?_
    · intro q
      by_cases hq : q = k
      · subst hq; exact g.wf
      · rw [g.others q hq]; exact h.wf q
    · intro y hy
      by_cases hq : Key.account a .transactions = k
      · subst hq
        exact g.past y (by show y ≠ s.year (.account a); omega)
      · rw [g.others _ hq]

theorem Rec.catchUp {G : K → K → K} {a : A} {y0 : ℤ} {inp : Option (Dict ℤ (Val K))} {n : ℕ}
    (hn : 5 ≤ n) (i : N) : ∀ (m : ℕ) {s : HSt N A K}, Rec G a y0 inp s →
    Rec G a y0 inp (catchUp n i m s).2 := by
  intro m
  induction m with
  | zero => intro s h; exact h
  | succ m ih =>
    intro s h
    have h1 := h.nextYear hn (.person i)
    simp only [Recorded.catchUp]
    cases hr : Recorded.nextYear household n (.person i) s with
    | mk r t =>
      rw [hr] at h1
      cases r with
      | some e => exact h1
      | none => exact ih h1

theorem Rec.poke {G : K → K → K} {a : A} {y0 : ℤ} {inp : Option (Dict ℤ (Val K))} {s : HSt N A K}
    (h : Rec G a y0 inp s) (w : World N A K) (hw : w.growth a = G) :
    Rec G a y0 inp { s with world := w } :=
  h.same rfl h.wf rfl (hw.trans h.growth.symm) (fun _ => rfl) (fun _ => rfl) (fun _ _ => rfl)

theorem Rec.close {G : K → K → K} {a : A} {y0 : ℤ} {inp : Option (Dict ℤ (Val K))} {n : ℕ}
    (hn : 5 ≤ n) {s : HSt N A K} (h : Rec G a y0 inp s) (b : A) :
    Rec G a y0 inp (closeAccount n b s).2 := by
  have h1 := h.nextYear hn (.account b)
  simp only [closeAccount]
  cases hr : Recorded.nextYear household n (.account b) s with
  | mk r t =>
    rw [hr] at h1
    cases r with
    | some e => exact h1
    | none => exact h1.poke _ h1.growth

theorem Rec.step {G : K → K → K} {a : A} {y0 : ℤ} {inp : Option (Dict ℤ (Val K))} {n : ℕ}
    (hn : 5 ≤ n) {s : HSt N A K} (h : Rec G a y0 inp s) (op : HOp N A K) (hop : Leaves G a op) :
    Rec G a y0 inp (hstep n s op) := by
  cases op with
  | read k => exact h.read hn k
  | personNextYear i => exact h.nextYear hn (.person i)
  | accountNextYear b =>
    simp only [hstep, accountNextYear]
    cases s.world.owner b with
    | none => exact h.close hn b
    | some i =>
      have h1 := h.catchUp hn i (s.year (.account b) - s.year (.person i)).toNat
      simp only
      cases hr : Recorded.catchUp n i (s.year (.account b) - s.year (.person i)).toNat s with
      | mk r t =>
        rw [hr] at h1
        cases r with
        | some e => exact h1
        | none => exact h1.close hn b
  | addTransaction b v t =>
    simp only [hstep, addTransaction]
    cases Timing.whenConv t with
    | error e => exact h
    | ok t =>
      simp only
      cases hnow : s.now household (.account b .transactions) with
      | none => exact h.poke _ h.growth
      | some w =>
        cases w with
        | num x => exact h
        | txns d =>
          simp only
          cases Dict.get? d t with
          | none => exact h
          | some x =>
            have h1 := h.record (.account b .transactions) (.txns (Dict.set d t (x + v)))
              (.inl ⟨by simp, by simp⟩)
            simp only [putTx]
            split
            · exact h1.same rfl h1.wf (by simp [St.record]) rfl (fun _ => rfl) (fun _ => rfl)
                (fun _ _ => rfl)
            · exact h1
  | set k v =>
    refine h.edit hop ?_ (set_edits household h.wf k v)
    simp only [hstep, Recorded.set]; split <;> rfl
  | delete k =>
    refine h.edit hop ?_ (delete_edits household h.wf k)
    simp only [hstep, Recorded.delete]; split <;> rfl
  | clearCache o => exact h.clearCache o
  | other f => exact h.poke _ (hop _ h.growth)

theorem Rec.run {G : K → K → K} {a : A} {y0 : ℤ} {inp : Option (Dict ℤ (Val K))} {n : ℕ}
    (hn : 5 ≤ n) (ops : List (HOp N A K)) : ∀ {s : HSt N A K}, Rec G a y0 inp s →
    (∀ op ∈ ops, Leaves G a op) → Rec G a y0 inp (hrun n s ops) := by
  induction ops with
  | nil => intro s h _; exact h
  | cons op ops ih =>
    intro s h hops
    exact ih (h.step hn op (hops op List.mem_cons_self)) fun o ho => hops o (List.mem_cons_of_mem _ ho)

theorem rec_init (years : Who N A → ℤ) (inputs : Key N A → Option (Dict ℤ (Val K)))
    (hin : ∀ k d, inputs k = some d → Dict.WF d) (w : World N A K) (a : A) (b : K) :
    Rec (w.growth a) a (years (.account a)) (inputs (.account a .balance))
      (accountInit a b (init years inputs w)) := by
  have hi := inv_init household years inputs hin w
  have hset : (accountInit a b (init years inputs w)) = init years inputs w ∨
      Edits household (init years inputs w) (accountInit a b (init years inputs w))
        (.account a .balance) := set_edits household hi.wf _ _
  have hwf : ∀ k, Dict.WF ((accountInit a b (init years inputs w)).hist k) := by
    rcases hset with e | g
    · rw [e]; exact hi.wf
    · intro q
      by_cases hq : q = .account a .balance
      · subst hq; exact g.wf
      · rw [g.others q hq]; exact hi.wf q
  have hy : (accountInit a b (init years inputs w)).year = years := by
    rcases hset with e | g
    · rw [e]; rfl
    · rw [g.year]; rfl
  have hw : (accountInit a b (init years inputs w)).world = w := by
    simp only [accountInit, set]; split <;> rfl
  have hinp : (accountInit a b (init years inputs w)).inputs = inputs := by
    rcases hset with e | g
    · rw [e]; rfl
    · rw [g.inputs]; rfl
  refine ⟨by rw [hy], hwf, by rw [hinp], by rw [hw], ?_, ?_, ?_⟩
  · intro y v hv
    rw [hy]
    by_cases hyy : y = years (.account a)
    · exact .inl (le_of_eq hyy)
    · have : Dict.get? ((init years inputs w).hist (.account a .balance)) y = some v := by
        rcases hset with e | g
        · rw [e] at hv; exact hv
        · rwa [g.past y hyy] at hv
      rcases hi.only _ _ _ this with ⟨_, h2⟩ | ⟨d, h1, h2⟩
      · exact .inl h2
      · obtain ⟨u, hu⟩ := Dict.mem_keys_iff.1 h2
        exact .inr ⟨d, u, h1, hu⟩
  · intro y h1 h2
    rw [hy] at h2; omega
  · intro y v h1 h2
    rw [hy] at h2; omega

/-- **C82** (balances on record). For any household, with any inputs, after any program that does
not itself assign or delete the balance or rate of account `a` nor change how it compounds (it may
read, record transactions, close the years of anything in any order, clear caches, change rates,
...): the account has a balance on record for every closed year; and the balance on record for a
closed year, or read for the current year, is, unless it was given as an input, the one on record
for the year before, with the transactions on record for that year, grown at the rate on record for
the year. -/
theorem C82_recorded_balances (n : ℕ) (hn : 5 ≤ n) (years : Who N A → ℤ)
    (inputs : Key N A → Option (Dict ℤ (Val K))) (hin : ∀ k d, inputs k = some d → Dict.WF d)
    (w : World N A K) (a : A) (opening : K) (ops : List (HOp N A K))
    (hops : ∀ op ∈ ops, Leaves (w.growth a) a op) :
    let s := hrun n (accountInit a opening (init years inputs w)) ops
    let s' := (read household n (.account a .balance) s).2
    (∀ y, years (.account a) ≤ y → y < s.year (.account a) →
      ∃ v, Dict.get? (s.hist (.account a .balance)) y = some v) ∧
    (∀ y v, years (.account a) < y → y < s.year (.account a) →
      ¬ inYear (inputs (.account a .balance)) y →
      Dict.get? (s.hist (.account a .balance)) y = some v → Law (w.growth a) a s y v) ∧
    (∀ v, years (.account a) < s.year (.account a) →
      ¬ inYear (inputs (.account a .balance)) (s.year (.account a)) →
      (read household n (.account a .balance) s).1 = .ok v →
      Law (w.growth a) a s' (s.year (.account a)) v) := by
  intro s s'
  have h : Rec _ a _ _ s := (rec_init years inputs hin w a opening).run hn ops hops
  have h' : Rec _ a _ _ s' := h.read hn (.account a .balance)
  refine ⟨h.past, fun y v h1 h2 => h.law y v h1 (le_of_lt h2), fun v h1 h2 hv => ?_⟩
  have hyr : s'.year = s.year := (read_grows household n (.account a .balance) s).1.year
  have hnow := (read_grows household n (.account a .balance) s).2.1 v hv rfl
  rw [St.now] at hnow
  refine h'.law _ v h1 (by rw [hyr]) h2 ?_
  show Dict.get? (s'.hist _) _ = _
  rw [← hyr]
  exact hnow

/-! ### New people and accounts -/

/-- **C82** (new people). After `Person(...)`, with no incomes given as inputs: gross income reads as the
one given to the constructor, net income as that less the tax withheld on it. -/
theorem C82_new_person (n : ℕ) (hn : 5 ≤ n) (i : N) (gross tax : K) (s t : HSt N A K)
    (hin : ∀ p, s.inputs (.person i p) = none)
    (htax : ∀ f, s.world.tax i = some f → f gross (s.year (.person i)) = .ok tax)
    (hnone : s.world.tax i = none → tax = 0)
    (hw : s.now household (.person i .taxWithheld) = none)
    (h : personInit n i gross s = (none, t)) :
    (read household n (.person i .grossIncome) t).1 = .ok (.num gross) ∧
    (read household n (.person i .taxWithheld) t).1 = .ok (.num tax) ∧
    (read household n (.person i .netIncome) t).1 = .ok (.num (gross - tax)) := by
  have hnk : ∀ k : Key N A, hrank k < n := fun k => lt_of_lt_of_le (hrank_lt k) hn
  have hset : ∀ (u : HSt N A K) p v, u.inputs = s.inputs →
      set household (.person i p) v u = u.record household (.person i p) v := by
    intro u p v hu
    have : u.isInput household (.person i p) = false := by simp only [St.isInput, hu, hin]
    simp only [set, this, Bool.false_eq_true, if_false]
  simp only [personInit, hset s _ _ rfl] at h
  set s1 := s.record household (.person i .grossIncome) (.num gross) with hs1
  have n1 : s1.now household (.person i .grossIncome) = some (.num gross) := now_record _ _ _ _
  have r1 : read household n (.person i .grossIncome) s1 = (.ok (.num gross), s1) := by
    obtain ⟨m, rfl⟩ : ∃ m, n = m + 1 := ⟨n - 1, by omega⟩
    exact (read_grows household m _ _).2.2 _ n1
  rw [r1] at h
  simp only at h
  have v1 : hval s1 (.person i .taxWithheld) = .ok (.num tax) := by
    have hno : s1.now household (.person i .taxWithheld) = none := by
      simpa [hs1, St.now, St.record] using hw
    rw [hval_none hno]
    show evProg _ _ (withheldGet i (s.year (.person i)) s.world) = _
    unfold withheldGet
    cases hf : s.world.tax i with
    | none => simp only [ret, evProg, hnone hf]
    | some f =>
      simp only [askNum, evProg, show hval s1 (.person i .grossIncome) = _ from (val_some n1).1,
        htax f hf, Except.map]
  rw [read_eq household_acyclic (hnk _), show val household hrank s1 (.person i .taxWithheld) = _
    from v1] at h
  simp only [Prod.mk.injEq, true_and] at h
  set s2 := grow household hrank s1 (fills household hrank s1 (.person i .taxWithheld)) with hs2
  rw [hset s2 _ _ rfl] at h
  have hcl : Closed household hrank s1 (fills household hrank s1 (.person i .taxWithheld)) := by
    have := closed_union household_acyclic (closed_empty household hrank s1)
      (Key.person (A := A) i .taxWithheld)
    rwa [Set.empty_union] at this
  have v2 : ∀ k, hval s2 k = hval s1 k := fun k => val_grow household_acyclic s1 hcl k
  have v3 : ∀ k, (k = .person i .grossIncome ∨ k = .person i .taxWithheld ∨
      k = .person i .raiseRate) → hval t k = hval s2 k := by
    intro k hk
    subst h
    refine val_agree (c := household) (s := s2)
      (t := s2.record household (.person i .netIncome) (.num (gross - tax))) (D := fun k : Key N A => k = .person i .grossIncome ∨ k = .person i .taxWithheld ∨
      k = .person i .raiseRate) ⟨?_, fun _ _ => rfl, fun _ _ => rfl, ?_⟩ hk
    · rintro k (rfl | rfl | rfl) <;> simp [St.record]
    · rintro k (rfl | rfl | rfl)
      · show (grossGet i _ _).Within _
        have next : (pastNum (Key.person (A := A) i .grossIncome) (s2.year (.person i) - 1) fun x : K =>
            askNum (.person i .raiseRate) fun r => ret (x * (1 + r))).Within
            (fun k => k = .person i .grossIncome ∨ k = .person i .taxWithheld ∨
              k = .person i .raiseRate) := by
          refine ⟨.inl rfl, ?_⟩
          rintro (_ | (x | d))
          · trivial
          · refine ⟨.inr (.inr rfl), ?_⟩
            rintro (y | d) <;> trivial
          · trivial
        unfold grossGet
        simp only
        split
        · split
          · trivial
          · exact next
        · exact next
      · show (withheldGet i _ _).Within _
        unfold withheldGet
        split
        · refine ⟨.inl rfl, ?_⟩
          rintro (y | d) <;> trivial
        · trivial
      · trivial
  simp only [read_val hn]
  refine ⟨?_, ?_, ?_⟩
  · rw [v3 _ (.inl rfl), v2]; exact (val_some n1).1
  · rw [v3 _ (.inr (.inl rfl)), v2]; exact v1
  · subst h
    exact (val_some (now_record household s2 (.person i .netIncome) _)).1

/-- **C82.** What an account reports in a year for which nothing is on record yet, in terms of
what it reports otherwise: the rate of that year; the growth of the opening balance and of each
transaction; and for tax what the rules of its class make of the year's transactions, or, without
such rules, the returns if they are gains and nothing else. -/
theorem C82_account_figures (n : ℕ) (hn : 5 ≤ n) (a : A) (s : HSt N A K)
    (hnew : ∀ p, p ≠ .balance → s.now household (.account a p) = none) :
    let shows : AProp → Except PyErr (Val K) := fun p => (read household n (.account a p) s).1
    let y := s.year (.account a)
    shows .rate = (s.world.rates a y).map .num ∧
    shows .transactions = .ok (.txns (s.world.txns a)) ∧
    (∀ b r, shows .balance = .ok (.num b) → shows .rate = .ok (.num r) →
      shows .returns = .ok (.num (b * (s.world.growth a r 1 - 1) +
        ((s.world.txns a).map fun kv => kv.2 * (s.world.growth a r (1 - kv.1) - 1)).sum))) ∧
    (∀ R, s.world.rules a = some R →
      shows .taxableIncome = (R.taxable y (s.world.txns a)).map .num ∧
      shows .taxWithheld = (R.withheld y (s.world.txns a)).map .num ∧
      shows .taxCredit = (R.credit y (s.world.txns a)).map .num ∧
      shows .taxDeduction = (R.deduction y (s.world.txns a)).map .num) ∧
    (s.world.rules a = none →
      (∀ x, shows .returns = .ok (.num x) → shows .taxableIncome = .ok (.num (max x 0))) ∧
      shows .taxWithheld = .ok (.num 0) ∧ shows .taxCredit = .ok (.num 0) ∧
      shows .taxDeduction = .ok (.num 0)) := by
  intro shows y
  have hs : ∀ p, shows p = hval s (.account a p) := fun p => by
    show (read household n (.account a p) s).1 = _
    rw [read_val hn]
  have hv : ∀ p, p ≠ .balance →
      hval s (.account a p) = evProg (hval s) s (accountGet a y s.world p) :=
    fun p hp => hval_none (hnew p hp)
  have htx : hval s (.account a .transactions) = .ok (.txns (s.world.txns a)) := by
    rw [hv _ (by decide)]; rfl
  have hfold : ∀ (G : K → K) (l : Dict K K) (x : K),
      l.foldl (fun x kv => x + kv.2 * (G (1 - kv.1) - 1)) x =
        x + (l.map fun kv => kv.2 * (G (1 - kv.1) - 1)).sum := by
    intro G l
    induction l with
    | nil => intro x; simp
    | cons e l ih => intro x; rw [List.foldl_cons, ih, List.map_cons, List.sum_cons]; ring
  refine ⟨?_, ?_, ?_, ?_, ?_⟩
  · rw [hs, hv _ (by decide)]; rfl
  · rw [hs, htx]
  · intro b r hb hr
    rw [hs] at hb hr ⊢
    rw [hv _ (by decide)]
    simp only [accountGet, askNum, askTxns, evProg, hb, hr, htx, ret, hfold]
  · intro R hR
    simp only [hs, hv _ (by decide : AProp.taxableIncome ≠ .balance),
      hv _ (by decide : AProp.taxWithheld ≠ .balance), hv _ (by decide : AProp.taxCredit ≠ .balance),
      hv _ (by decide : AProp.taxDeduction ≠ .balance)]
    simp only [accountGet, ruled, hR, askTxns, evProg, htx, and_self]
  · intro hR
    refine ⟨fun x hx => ?_, ?_⟩
    · rw [hs] at hx ⊢
      rw [hv _ (by decide)]
      simp only [accountGet, ruled, hR, askNum, evProg, hx, ret]
    · simp only [hs, hv _ (by decide : AProp.taxWithheld ≠ .balance),
        hv _ (by decide : AProp.taxCredit ≠ .balance),
        hv _ (by decide : AProp.taxDeduction ≠ .balance)]
      simp only [accountGet, ruled, hR, evProg, ret, and_self]

theorem evProg_sum {f : Key N A → Except PyErr (Val K)} {s : HSt N A K} {g : A → Key N A}
    {x : A → K} (l : List A) (h : ∀ a ∈ l, f (g a) = .ok (.num (x a))) (start : K) :
    evProg f s (askSum (l.map g) start) = .ok (.num (start + (l.map x).sum)) := by
  induction l generalizing start with
  | nil => simp [askSum, ret, evProg]
  | cons a l ih =>
    simp only [List.map_cons, askSum, askNum, evProg, h a List.mem_cons_self, List.sum_cons]
    rw [ih (fun b hb => h b (List.mem_cons_of_mem _ hb)), add_assoc]

/-- **C82.** What a person reports in a year for which nothing is on record yet: the raise of that
year; last year's gross income with that raise, or nothing in the years after the one of
retirement; net income after the tax withheld from it; and for tax the sums over the person's
accounts. -/
theorem C82_person_figures (n : ℕ) (hn : 5 ≤ n) (i : N) (s : HSt N A K)
    (hnew : ∀ p, s.now household (.person i p) = none) :
    let shows : PProp → Except PyErr (Val K) := fun p => (read household n (.person i p) s).1
    let account : AProp → A → Except PyErr (Val K) :=
      fun p a => (read household n (.account a p) s).1
    let y := s.year (.person i)
    shows .raiseRate = (s.world.raises i y).map .num ∧
    (∀ x r, Dict.get? (s.hist (.person i .grossIncome)) (y - 1) = some (.num x) →
      shows .raiseRate = .ok (.num r) → (∀ y', s.world.retirement i = some y' → y ≤ y') →
      shows .grossIncome = .ok (.num (x * (1 + r)))) ∧
    (∀ y', s.world.retirement i = some y' → y' < y → shows .grossIncome = .ok (.num 0)) ∧
    (∀ x t, shows .grossIncome = .ok (.num x) → shows .taxWithheld = .ok (.num t) →
      shows .netIncome = .ok (.num (x - t))) ∧
    (∀ f x, s.world.tax i = some f → shows .grossIncome = .ok (.num x) →
      shows .taxWithheld = (f x y).map .num) ∧
    (s.world.tax i = none → shows .taxWithheld = .ok (.num 0)) ∧
    (∀ d : A → K, (∀ a ∈ s.world.accounts i, account .taxDeduction a = .ok (.num (d a))) →
      shows .taxDeduction = .ok (.num ((s.world.accounts i).map d).sum)) ∧
    (∀ c : A → K, (∀ a ∈ s.world.accounts i, account .taxCredit a = .ok (.num (c a))) →
      shows .taxCredit = .ok (.num ((s.world.accounts i).map c).sum)) ∧
    (∀ (x : K) (t : A → K), shows .grossIncome = .ok (.num x) →
      (∀ a ∈ s.world.accounts i, account .taxableIncome a = .ok (.num (t a))) →
      shows .taxableIncome = .ok (.num (x + ((s.world.accounts i).map t).sum))) := by
  intro shows account y
  have hs : ∀ p, shows p = hval s (.person i p) := fun p => by
    show (read household n (.person i p) s).1 = _
    rw [read_val hn]
  have ha : ∀ p a, account p a = hval s (.account a p) := fun p a => by
    show (read household n (.account a p) s).1 = _
    rw [read_val hn]
  have hv : ∀ p, hval s (.person i p) = evProg (hval s) s (personGet i y s.world p) :=
    fun p => hval_none (hnew p)
  refine ⟨?_, ?_, ?_, ?_, ?_, ?_, ?_, ?_, ?_⟩
  · rw [hs, hv]; rfl
  · intro x r hx hr hret
    rw [hs] at hr ⊢
    rw [hv]
    simp only [personGet, grossGet]
    cases hw : s.world.retirement i with
    | none => simp only [pastNum, askNum, evProg, hx, hr, ret]
    | some y' =>
      simp only [if_neg (not_lt.2 (hret y' hw)), pastNum, askNum, evProg, hx, hr, ret]
  · intro y' hw hlt
    rw [hs, hv]
    simp only [personGet, grossGet, hw, if_pos hlt, evProg, ret]
  · intro x t hx ht
    rw [hs] at hx ht ⊢
    rw [hv]
    simp only [personGet, askNum, evProg, hx, ht, ret]
  · intro f x hf hx
    rw [hs] at hx ⊢
    rw [hv]
    simp only [personGet, withheldGet, hf, askNum, evProg, hx]
  · intro hf
    rw [hs, hv]
    simp only [personGet, withheldGet, hf, evProg, ret]
  · intro d hd
    rw [hs, hv]
    simp only [ha] at hd
    simpa [personGet] using evProg_sum (s := s) (f := hval s) _ hd 0
  · intro d hd
    rw [hs, hv]
    simp only [ha] at hd
    simpa [personGet] using evProg_sum (s := s) (f := hval s) _ hd 0
  · intro x d hx hd
    rw [hs] at hx ⊢
    rw [hv]
    simp only [ha] at hd
    simp only [personGet, askNum, evProg, hx]
    exact evProg_sum (s := s) (f := hval s) _ hd x

/-! ### An example household -/

/-- A person with a job, a plain account (`false`) and a registered account (`true`), from which
withdrawals are taxed and to which contributions are deducted. -/
def home : World Unit Bool ℚ where
  retirement _ := some 2040
  raises _ _ := .ok (1 / 10)
  tax _ := some fun x _ => .ok (x / 4)
  accounts _ := [false, true]
  rates _ _ := .ok (1 / 20)
  growth _ r t := 1 + r * t
  txns _ := []
  owner _ := some ()
  rules a := if a then some
    { taxable := fun _ d => .ok ((d.map fun e => max (-e.2) 0).sum)
      withheld := fun _ _ => .ok 0
      credit := fun _ _ => .ok 0
      deduction := fun _ d => .ok ((d.map fun e => max e.2 0).sum) } else none

/-- The plain account's balance in 2022 is given as an input. -/
def homeInputs : Key Unit Bool → Option (Dict ℤ (Val ℚ))
  | .account false .balance => some [(2022, .num 500)]
  | _ => none

/-- The household in 2020. -/
def homeNew : HSt Unit Bool ℚ :=
  (personInit 5 () 1000 (accountInit true 200 (accountInit false 100
    (init (fun _ => 2020) homeInputs home)))).2

/-- `C82_new_person` of the example: 1000 gross, 250 withheld, 750 net. -/
example : let s := accountInit true 200 (accountInit false 100 (init (fun _ => 2020) homeInputs home))
    (personInit 5 () 1000 s).1 = none ∧ (∀ p, s.inputs (.person () p) = none) ∧
    s.now household (.person () .taxWithheld) = none ∧
    (read household 5 (.person () .netIncome) homeNew).1 = .ok (.num 750) :=
  ⟨by decide +kernel, fun p => by cases p <;> rfl, by decide +kernel, by decide +kernel⟩

/-- Money is moved, incomes are looked at, and accounts go on, the plain one by four years. -/
def homeOps : List (HOp Unit Bool ℚ) :=
  [.addTransaction true 40 (.str "start"), .addTransaction false (-10) (.num (1 / 2)),
    .read (.person () .taxableIncome), .accountNextYear false, .accountNextYear false,
    .accountNextYear false, .accountNextYear false, .accountNextYear true]

/-- C81 is about households: the hypotheses hold of them, with a recursion limit of 5. -/
example : Acyclic (household : Sys (Who Unit Bool) (Key Unit Bool) (Val ℚ) _) hrank ∧
    (∀ k : Key Unit Bool, hrank k < 5) ∧
    Owned (household : Sys (Who Unit Bool) (Key Unit Bool) (Val ℚ) (World Unit Bool ℚ)) :=
  ⟨household_acyclic, hrank_lt, household_owned⟩

/-- C81: reading taxable income caches gross income and balances, and returns 1000 of income and 5
of returns; the year can be closed, and has that on record. -/
example : (read household 5 (.person () .taxableIncome) homeNew).1 = .ok (.num 1005) ∧
    (homeNew.now household (.account false .rate) = none ∧
      (read household 5 (.person () .taxableIncome) homeNew).2.now household (.account false .rate)
        = some (.num (1 / 20))) ∧
    (nextYear household 5 (.person ()) homeNew).1 = none ∧
    Dict.get? ((nextYear household 5 (.person ()) homeNew).2.hist (.person () .taxableIncome)) 2020
      = some (.num 1005) := by
  decide +kernel

/-- C81 (other objects): closing the plain account's year leaves the registered account's balance
alone, but not the owner's taxable income, which depends on it. -/
example : (nextYear household 5 (.account false) homeNew).1 = none ∧
    (read household 5 (.account true .balance) (nextYear household 5 (.account false) homeNew).2).1
      = (read household 5 (.account true .balance) homeNew).1 ∧
    (read household 5 (.person () .taxableIncome) (nextYear household 5 (.account false) homeNew).2).1
      ≠ (read household 5 (.person () .taxableIncome) homeNew).1 := by
  decide +kernel

/-- C82: the plain account has been through four years; the balance of 2022 is the input, and the
others are the years before, grown. -/
example : (hrun 5 homeNew homeOps).year (.account false) = 2024 ∧
    (hrun 5 homeNew homeOps).hist (.account false .balance) = [(2022, .num 500), (2020, .num 100),
      (2021, .num (379 / 4)), (2023, .num 525)] ∧
    (read household 5 (.account false .balance) (hrun 5 homeNew homeOps)).1
      = .ok (.num (2205 / 4)) := by
  decide +kernel

/-- C82: an account and the operations on it as in the theorem. -/
example : (∀ k d, homeInputs k = some d → Dict.WF d) ∧
    (∀ op ∈ homeOps, Leaves (home.growth false) false op) ∧
    (hrun 5 (accountInit false 100 (init (fun _ => 2020) homeInputs home))
      ([.set (.person () .grossIncome) (.num 1000)] ++ homeOps)).hist (.account false .balance)
      = [(2022, .num 500), (2020, .num 100), (2021, .num (379 / 4)), (2023, .num 525)] := by
  refine ⟨?_, ?_, by decide +kernel⟩
  · intro k d h
    unfold homeInputs at h
    split at h
    · cases h; simp [Dict.WF, Dict.keys]
    · cases h
  · intro op hop
    simp only [homeOps, List.mem_cons, List.not_mem_nil, or_false] at hop
    rcases hop with rfl | rfl | rfl | rfl | rfl | rfl | rfl | rfl <;> trivial

/-- `C82_account_figures` and `C82_person_figures`: a new year of the registered account and of the
person. -/
example : let s := (nextYear household 5 (.account true)
      (nextYear household 5 (.person ()) homeNew).2).2
    (∀ p, s.now household (.person () p) = none) ∧
    (∀ p, p ≠ .balance → s.now household (.account true p) = none) ∧
    (read household 5 (.person () .grossIncome) s).1 = .ok (.num 1100) ∧
    (read household 5 (.account true .returns) s).1 = .ok (.num (21 / 2)) :=
  ⟨fun p => by cases p <;> decide +kernel,
    fun p hp => by cases p <;> first | exact absurd rfl hp | decide +kernel,
    by decide +kernel, by decide +kernel⟩

/-! ### What reading puts on record -/

/-- Specification: the figures that stay open until the year is closed, however often they are read:
everything about an account but its balance and rate, and a person's taxable income and the tax
withheld from it. -/
def StaysOpen : Key N A → Prop
  | .account _ p => p = .transactions ∨ p = .returns ∨ p = .taxableIncome ∨ p = .taxWithheld ∨
      p = .taxCredit ∨ p = .taxDeduction
  | .person _ p => p = .taxableIncome ∨ p = .taxWithheld

/-- **C82.** Reading any figure puts nothing on record for the figures that stay open, so that reading
them early in a year does not freeze them; every other figure is on record from the moment it is
read. -/
theorem C82_reading_puts_on_record (n : ℕ) (k : Key N A) (s : HSt N A K) :
    (∀ q, StaysOpen q → (read household n k s).2.hist q = s.hist q) ∧
    (¬ StaysOpen k → ∀ v, (read household n k s).1 = .ok v →
      (read household n k s).2.now household k = some v) := by
  constructor
  · intro q hq
    have hc : (household (N := N) (A := A) (K := K)).cached q = false := by
      cases q with
      | person i p => rcases hq with rfl | rfl <;> rfl
      | account a p => rcases hq with rfl | rfl | rfl | rfl | rfl | rfl <;> rfl
    induction n generalizing k s with
    | zero => rfl
    | succ n ih =>
      have run : ∀ (P : Prog (Key N A) (Val K)) (s : HSt N A K),
          (exec (read household n) P s).2.hist q = s.hist q := by
        intro P
        induction P with
        | done r => intro s; rfl
        | ask q' next ihP =>
          intro s
          simp only [exec]
          have h1 := ih q' s
          cases hr : read household n q' s with
          | mk r s' =>
            rw [hr] at h1
            cases r with
            | ok v => exact (ihP v s').trans h1
            | error e => exact h1
        | past q' y next ihP => intro s; exact ihP _ s
      have h1 := run (household.fget k s.year s.world) s
      simp only [read]
      cases hn : s.now household k with
      | some v => rfl
      | none =>
        simp only
        cases hr : exec (read household n) (household.fget k s.year s.world) s with
        | mk r s' =>
          rw [hr] at h1
          cases r with
          | error e => exact h1
          | ok v =>
            simp only [keep]
            split
            · rename_i hk
              have : q ≠ k := by rintro rfl; rw [hc] at hk; cases hk
              simp only [St.record, if_neg this]
              exact h1
            · exact h1
  · intro hk v hv
    refine (read_grows household n k s).2.1 v hv ?_
    cases k with
    | person i p => cases p <;> first | rfl | (exact absurd (by simp [StaysOpen]) hk)
    | account a p => cases p <;> first | rfl | (exact absurd (by simp [StaysOpen]) hk)

/-- Reading a new account's returns leaves them open, and puts its rate on record. -/
example : let s := (read household 5 (.account true .returns) homeNew).2
    s.hist (.account true .returns) = [] ∧ s.hist (.account true .rate) ≠ [] ∧
    homeNew.hist (.account true .rate) = [] := by
  decide +kernel

/-! ### Where the opening balance and inputs are not safe -/

/-- **C82** (refuted: "clearing the cache forgets nothing that cannot be computed"). In an account's
first year, when no balance is on record for the year before and none was given as an input for this
year, `clear_cache()` deletes the opening balance: the balance can no longer be read, nor the year
be closed (if it has no owner that is behind). -/
theorem C82_clear_cache_loses_balance (n : ℕ) (hn : 5 ≤ n) (a : A) (s : HSt N A K)
    (hwf : ∀ k, Dict.WF (s.hist k)) (hin : ¬ inYear (s.inputs (.account a .balance)) (s.year (.account a)))
    (hfirst : Dict.get? (s.hist (.account a .balance)) (s.year (.account a) - 1) = none) :
    let t := clearCache household (.account a) s
    (read household n (.account a .balance) t).1 = .error .keyError ∧
    (closeAccount n a t).1 ≠ none := by
  intro t
  obtain ⟨b1, b2, b3, b4, b5, b6, b7, -⟩ := deletes_hist household
    (((household (N := N) (A := A) (K := K)).props (.account a)).filter fun k =>
      (household (N := N) (A := A) (K := K)).cached k) s hwf
  have hnow : t.now household (.account a .balance) = none := by
    refine b7 _ ?_ (isInput_inYear rfl hin)
    rw [List.mem_filter]
    exact ⟨mem_props _, rfl⟩
  have hprev : Dict.get? (t.hist (.account a .balance)) (t.year (.account a) - 1) = none := by
    have e : t.year = s.year := b1
    rw [e, ← hfirst]
    exact b5 _ _ (by show _ ≠ s.year (.account a); omega)
  have hval : (read household n (.account a .balance) t).1 = .error .keyError := by
    rw [read_val hn]
    show hval t (.account a .balance) = _
    rw [hval_none hnow]
    simp only [getter, accountGet, pastNum, evProg, hprev]
  refine ⟨hval, fun h => ?_⟩
  have hny : (nextYear household n (.account a) t).1 = none := by
    simp only [closeAccount] at h
    cases hr : nextYear household n (.account a) t with
    | mk x u =>
      rw [hr] at h
      cases x with
      | none => rfl
      | some e => cases h
  obtain ⟨v, hv⟩ := (C81_next_year_completes household hrank household_acyclic n
    (fun k => lt_of_lt_of_le (hrank_lt k) hn) t (.account a)).1.1 hny _ (mem_props (.account a .balance))
  rw [hval] at hv
  cases hv

/-- The new registered account of the example: 200, then nothing. -/
example : ¬ inYear (homeNew.inputs (.account true .balance)) (homeNew.year (.account true)) ∧
    Dict.get? (homeNew.hist (.account true .balance)) (homeNew.year (.account true) - 1) = none ∧
    (read household 5 (.account true .balance) homeNew).1 = .ok (.num 200) ∧
    (read household 5 (.account true .balance)
      (clearCache household (.account true) homeNew)).1 = .error .keyError := by
  refine ⟨?_, by decide +kernel, by decide +kernel, by decide +kernel⟩
  rintro ⟨b, v, h, -⟩
  have : homeNew.inputs (.account true .balance) = none := by decide +kernel
  rw [this] at h
  cases h

omit [IsStrictOrderedRing K] in
/-- **C82** (refuted: "inputs are only read"). If an account's transactions of the year were given as
an input, `add_transaction` either changes the caller's dict, if it has an entry for that date, or
raises KeyError and records nothing. -/
theorem C82_add_transaction_changes_inputs (a : A) (value t : K) (when : Timing.When K)
    (hw : Timing.whenConv when = .ok t) (s : HSt N A K) (b : Dict ℤ (Val K)) (d : Dict K K)
    (hin : s.inputs (.account a .transactions) = some b)
    (hb : Dict.get? b (s.year (.account a)) = some (.txns d))
    (hnow : s.now household (.account a .transactions) = some (.txns d)) :
    (∀ x, Dict.get? d t = some x → (addTransaction a value when s).1 = none ∧
      (addTransaction a value when s).2.inputs (.account a .transactions)
        = some (Dict.set b (s.year (.account a)) (.txns (Dict.set d t (x + value))))) ∧
    (Dict.get? d t = none → addTransaction a value when s = (some .keyError, s)) := by
  have hi : s.isInput household (.account a .transactions) = true := by
    simp only [St.isInput, hin]
    show (Dict.get? b (s.year (.account a))).isSome = true
    rw [hb]; rfl
  constructor
  · intro x hx
    simp only [addTransaction, hw, hnow, hx, putTx, hi, if_true, hin, Option.map_some, and_self]
  · intro hx
    simp only [addTransaction, hw, hnow, hx]

/-- Transactions given as an input: 30 at the start of the year. -/
example :
    let s := accountInit true 200 (init (fun _ => 2020) (fun k =>
      if k = Key.account true .transactions then some [(2020, .txns [(0, 30)])] else none) home)
    s.inputs (.account true .transactions) = some [(2020, .txns [(0, 30)])] ∧
    s.now household (.account true .transactions) = some (.txns [(0, 30)]) ∧
    (addTransaction true 5 (.str "start") s).2.inputs (.account true .transactions)
      = some [(2020, .txns [(0, 35)])] ∧
    (addTransaction true 5 (.str "end") s).1 = some .keyError := by
  decide +kernel

end Forecaster.Recorded
