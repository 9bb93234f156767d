import Verif.Lemmas.Household
import Verif.Props.SubForecastAccount
import Verif.Props.Mapping

/-! Helper lemmas for `Verif/Props/Solvency.lean`. -/

set_option linter.unusedSectionVars false

namespace Forecaster.SubForecast

open Forecaster Forecaster.Timing Forecaster.Account

variable {K : Type} [Field K] [LinearOrder K] [IsStrictOrderedRing K]
variable {P : Type} [DecidableEq P]

/-! ### Balances -/

theorem grown_upd (A : K → K) {d e : Dict K K} (hd : Dict.WF d) (he : Dict.WF e) {w x : K}
    (h : ∀ t, Dict.val e t = Dict.val d t + if w = t then x else 0) (r : K) :
    grown A e r = grown A d r + if w ≤ r then x * A (r - w) else 0 := by
  rw [Mapping.grown_congr he (Dict.wf_set hd w (Dict.val d w + x)) (fun t => by
    rw [h, Dict.val_set]
    by_cases hw : w = t
    · simp [hw]
    · simp [hw]) A r, grown_set A hd]
  congr 3
  ring

/-- All transactions have the sign of `σ`. -/
def Signed (σ : K) (d : Dict K K) : Prop := ∀ t, 0 ≤ σ * Dict.val d t

theorem signed_nil (σ : K) : Signed σ ([] : Dict K K) := fun t => by
  rw [Dict.val_nil, mul_zero]

theorem Signed.mem {σ : K} {d : Dict K K} (hd : Dict.WF d) (h : Signed σ d) {e : K × K}
    (he : e ∈ d) : 0 ≤ σ * e.2 := by
  rw [← val_of_mem hd he]; exact h _

theorem Signed.upd {σ : K} {d e : Dict K K} (h : Signed σ d) {w x : K} (hx : 0 ≤ σ * x)
    (hu : ∀ t, Dict.val e t = Dict.val d t + if w = t then x else 0) : Signed σ e := by
  intro t
  rw [hu, mul_add]
  have := h t
  split_ifs
  · linarith
  · simpa using this

theorem grown_signed {σ : K} {A : K → K} (hA : IsGrowth A) {d : Dict K K}
    (h : ∀ e ∈ d, 0 ≤ σ * e.2) (t : K) : 0 ≤ σ * grown A d t := by
  induction d with
  | nil => simp
  | cons a d ih =>
    rw [grown_cons, mul_add]
    have h1 := ih fun e he => h e (List.mem_cons_of_mem _ he)
    have h2 : 0 ≤ σ * if a.1 ≤ t then a.2 * A (t - a.1) else 0 := by
      split_ifs
      · rw [← mul_assoc]; exact mul_nonneg (h a (by simp)) (hA.pos _).le
      · simp
    linarith

/-- Money put in later only adds to what was there. -/
theorem grown_later {σ : K} {A : K → K} (hA : IsGrowth A) {d : Dict K K}
    (h : ∀ e ∈ d, 0 ≤ σ * e.2) {s t : K} (hst : s ≤ t) :
    σ * grown A d s * A (t - s) ≤ σ * grown A d t := by
  induction d with
  | nil => simp
  | cons a d ih =>
    rw [grown_cons, grown_cons]
    have h1 := ih fun e he => h e (List.mem_cons_of_mem _ he)
    have h2 := h a (by simp)
    have h3 : σ * (if a.1 ≤ s then a.2 * A (s - a.1) else 0) * A (t - s)
        ≤ σ * if a.1 ≤ t then a.2 * A (t - a.1) else 0 := by
      by_cases h4 : a.1 ≤ s
      · rw [if_pos h4, if_pos (h4.trans hst), show t - a.1 = (s - a.1) + (t - s) by ring, hA.add]
        apply le_of_eq; ring
      · rw [if_neg h4]
        simp only [mul_zero, zero_mul]
        split_ifs
        · rw [← mul_assoc]; exact mul_nonneg h2 (hA.pos _).le
        · simp
    nlinarith

/-- What is on the right side of zero at the end, after draining only, was so all along. -/
theorem never_crossed {σ : K} {A : K → K} (hA : IsGrowth A) {d : Dict K K} {b : K}
    (h : ∀ e ∈ d, σ * e.2 ≤ 0) (he : 0 ≤ σ * (b * A 1 + grown A d 1)) {t : K} (h1 : t ≤ 1) :
    0 ≤ σ * (b * A t + grown A d t) := by
  have h2 := grown_later (σ := -σ) hA (d := d) (fun e he => by have := h e he; linarith) h1
  have h3 : A 1 = A t * A (1 - t) := by rw [← hA.add]; congr 1; ring
  have h4 : 0 ≤ σ * (b * A t + grown A d t) * A (1 - t) := by
    rw [h3] at he
    linarith
  exact nonneg_of_mul_nonneg_left h4 (hA.pos _)

/-- Value at the start of the year. -/
def present (A : K → K) (d : Dict K K) : K := (d.map fun e => e.2 / A e.1).sum

theorem grown_present {A : K → K} (hA : IsGrowth A) {d : Dict K K}
    (hd : ∀ k ∈ Dict.keys d, 0 ≤ k ∧ k ≤ 1) : grown A d 1 = A 1 * present A d := by
  induction d with
  | nil => simp [present]
  | cons a d ih =>
    have h1 := hd a.1 (by simp [Dict.keys])
    rw [grown_cons, if_pos h1.2, ih fun k hk => hd k (by
      simp only [Dict.keys, List.map_cons, List.mem_cons]; exact .inr hk)]
    unfold present
    rw [List.map_cons, List.sum_cons, mul_add]
    congr 1
    have h2 : A 1 = A (1 - a.1) * A a.1 := by rw [← hA.add]; congr 1; ring
    rw [h2]
    have := (hA.pos a.1).ne'
    field_simp

/-- If rates do not fall, last year's draining does not hurt next year's opening balance. -/
theorem carried {σ : K} {A B : K → K} (hA : IsGrowth A) (hB : IsGrowth B)
    (hAB : ∀ t, 0 ≤ t → t ≤ 1 → A t ≤ B t) {d : Dict K K} (hd : Dated d) {b : K}
    (h : ∀ e ∈ d, σ * e.2 ≤ 0) (he : 0 ≤ σ * (b * A 1 + grown A d 1)) :
    0 ≤ σ * (b * B 1 + grown B d 1) := by
  rw [grown_present hA hd.rng] at he
  rw [grown_present hB hd.rng]
  have h1 : 0 ≤ σ * (b + present A d) := by
    refine nonneg_of_mul_nonneg_left ?_ (hA.pos 1)
    linarith
  have h2 : σ * present A d ≤ σ * present B d := by
    unfold present
    have hr := hd.rng
    clear he h1 hd
    induction d with
    | nil => simp
    | cons a d ih =>
      simp only [List.map_cons, List.sum_cons, mul_add]
      have h3 := hr a.1 (by simp [Dict.keys])
      have h4 := ih (fun e he => h e (List.mem_cons_of_mem _ he)) (fun k hk => hr k (by
        simp only [Dict.keys, List.map_cons, List.mem_cons]; exact .inr hk))
      have h5 : (B a.1)⁻¹ ≤ (A a.1)⁻¹ := inv_anti₀ (hA.pos _) (hAB _ h3.1 h3.2)
      have h6 := h a (by simp)
      have h7 : σ * (a.2 / A a.1) ≤ σ * (a.2 / B a.1) := by
        rw [div_eq_mul_inv, div_eq_mul_inv, ← mul_assoc, ← mul_assoc]
        exact mul_le_mul_of_nonpos_left h5 h6
      linarith
  have h8 : 0 ≤ σ * (b + present B d) := by
    rw [mul_add] at h1 ⊢; linarith
  have := mul_nonneg h8 (hB.pos 1).le
  linarith

/-! ### One transaction -/

variable (ttv : Acct K → K → K → Except PyErr (Ext K)) (default : Dict K K)

/-- A request for one date is one transaction. -/
theorem request_one {s s' : St P K} {x w0 : K} {src dst : Option P} {strict : Bool}
    (h : SubForecast.addTransaction ttv default s
      { value := x, timing := some (.scalar (.num w0)), src, dst, strict } = (s', none)) :
    0 ≤ w0 ∧ w0 ≤ 1 ∧ ∃ v src' dst',
      ((x < 0 ∧ v = -x ∧ src' = dst ∧ dst' = src) ∨
        (0 ≤ x ∧ v = x ∧ src' = src ∧ dst' = dst)) ∧
      addTransaction1 ttv s v w0 src' dst' strict = (s', none) := by
  unfold SubForecast.addTransaction at h
  cases ht : resolve default (some (.scalar (.num w0))) with
  | error e => simp only [ht] at h; simp at h
  | ok timing =>
    obtain ⟨rfl, h0, h1⟩ := CashFlow.scalar_resolved default ht
    simp only [ht] at h
    obtain ⟨s1, h2, h3⟩ := forEach_cons_ok h
    cases h3
    have ht1 : Dict.total [(w0, (1 : K))] = 1 := by simp [Dict.total_cons]
    rw [ht1] at h2
    simp only [one_ne_zero, if_false, div_one, mul_one] at h2
    refine ⟨h0, h1, _, _, _, ?_, h2⟩
    unfold orient
    split
    · next h => exact .inl ⟨h, rfl, rfl, rfl⟩
    · next h => exact .inr ⟨not_lt.1 h, rfl, rfl, rfl⟩

/-- Whether postponing transactions against `σ` can only help: money grows; or it shrinks, but the
account is one that money is taken from. -/
def Kindly (σ : K) (a : Acct K) : Prop :=
  Monotone a.A ∨ (Antitone a.A ∧ 0 < σ ∧ ∃ b, balance a = .ok b ∧ 0 ≤ b)

/-- Specification: how an account `a` is changed by transactions `d` that are dated on or after
the dates of `d`, in the direction of `σ`, or against it. -/
structure Took (σ : K) (a a' : Acct K) (d : Dict K K) : Prop where
  same : { a' with txns := [] } = { a with txns := [] }
  inv : Inv a'
  dates : ∀ k ∈ Dict.keys d, 0 ≤ k ∧ k ≤ 1
  toward : Signed σ a.txns → (∀ e ∈ d, 0 ≤ σ * e.2) → Signed σ a'.txns
  drain : Kindly σ a → Signed (-σ) a.txns → (∀ e ∈ d, σ * e.2 ≤ 0) → Signed (-σ) a'.txns ∧
    σ * (grown a.A a.txns 1 + (d.map fun e => e.2 * a.A (1 - e.1)).sum) ≤ σ * grown a.A a'.txns 1

theorem Took.refl {σ : K} {a : Acct K} (ha : Inv a) : Took σ a a [] :=
  ⟨rfl, ha, by simp, fun h _ => h, fun _ h _ => ⟨h, by simp⟩⟩

theorem same_A {a a' : Acct K} (h : { a' with txns := [] } = { a with txns := [] }) :
    a'.A = a.A ∧ a'.year = a.year ∧ a'.growth = a.growth ∧ a'.balHist = a.balHist ∧
      a'.txHist = a.txHist ∧ balance a' = balance a ∧ a'.defaultTiming = a.defaultTiming := by
  obtain ⟨y, g, b, t, th, dt⟩ := a
  obtain ⟨y', g', b', t', th', dt'⟩ := a'
  simp only [Acct.mk.injEq] at h
  obtain ⟨rfl, rfl, rfl, -, rfl, rfl⟩ := h
  exact ⟨rfl, rfl, rfl, rfl, rfl, rfl, rfl⟩

theorem Kindly.congr {σ : K} {a a' : Acct K} (hs : { a' with txns := [] } = { a with txns := [] })
    (h : Kindly σ a) : Kindly σ a' := by
  obtain ⟨h1, -, -, -, -, h2, -⟩ := same_A hs
  unfold Kindly
  rw [h1, h2]; exact h

/-- Where money only shrinks and is only taken out, withdrawals are not postponed. -/
theorem not_postponed {a : Acct K} (ha : Inv a) (hA : IsGrowth a.A) (hm : Antitone a.A) {b : K}
    (hb : balance a = .ok b) (hb0 : 0 ≤ b) (hs : Signed (-1) a.txns) {L : Limits K} {v w0 w : K}
    (h0 : 0 ≤ w0) (h1 : w0 ≤ 1) (h : shiftWhen ttv (.acct L a) v w0 = .ok w) : w = w0 := by
  unfold shiftWhen at h
  simp only at h
  cases hacc : accumAccount ttv L a w0 v with
  | error e => rw [hacc] at h; simp at h
  | ok acc =>
    rw [hacc, ok_bind] at h
    cases h
    have hge := earliest_ge (value := v) (accumAccount_keys ttv hacc)
    obtain ⟨e1, e2⟩ := earliest_account ttv hacc
    by_cases hex : ∃ u, ((u = w0 ∨ u ∈ Dict.keys a.txns) ∧ w0 ≤ u) ∧ CanPay L a w0 v u
    · obtain ⟨u, hu, hc⟩ := hex
      have hur : 0 ≤ u ∧ u ≤ 1 := by
        rcases hu.1 with rfl | h
        · exact ⟨h0, h1⟩
        · exact ha.tx.rng u h
      refine le_antisymm ((e1 ⟨u, hu, hc⟩).2 w0 ⟨.inl rfl, le_refl _⟩ ?_) hge
      intro r hr hw
      by_cases hru : u ≤ r
      · exact hc r hr hru
      · have hru := (not_le.1 hru).le
        have hrr : 0 ≤ r ∧ r ≤ 1 := ⟨h0.trans hw, hru.trans hur.2⟩
        obtain ⟨m, hm1, hm2⟩ := hc u hu.1 (le_refl _)
        unfold maxOutflow at hm1 ⊢
        rw [balanceAtTime_eq ha hb hur none (by simp), ok_bind] at hm1
        rw [balanceAtTime_eq ha hb hrr none (by simp), ok_bind]
        cases hm1
        refine ⟨_, rfl, le_trans ?_ hm2⟩
        simp only [Option.getD_none, grown_nil, add_zero]
        apply max_le_max _ (le_refl _)
        -- the balance falls
        have h5 := grown_later (σ := (-1 : K)) hA (fun e he => hs.mem ha.tx.wf he) hru
        have h6 : b * a.A u = b * a.A r * a.A (u - r) := by
          rw [mul_assoc, ← hA.add]; congr 2; ring
        have h7 : a.A (u - r) ≤ 1 := by rw [← hA.zero]; exact hm (by linarith)
        have h8 := (hA.pos (u - r)).le
        set x := b * a.A r + grown a.A a.txns r
        have h9 : b * a.A u + grown a.A a.txns u ≤ x * a.A (u - r) := by
          rw [h6]; simp only [x]; linarith
        rcases le_total x 0 with hx | hx
        · apply le_min
          · refine le_trans (min_le_right _ _) ?_
            have : x * a.A (u - r) ≤ 0 := mul_nonpos_of_nonpos_of_nonneg hx h8
            rw [Ext.fin_le_fin]
            linarith
          · exact min_le_right _ _
        · refine min_le_min ?_ (le_refl _)
          simp only [Ext.fin_le_fin, neg_le_neg_iff]
          exact h9.trans (mul_le_of_le_one_right hx h7)
    · exact e2 hex

/-- One transaction between `available` and account `p`. -/
theorem one_took {σ : K} {s s' : St P K} (hs : Good s) {available p : P} (hp : p ≠ available)
    {L : Limits K} {a : Acct K} (ha : s.pools p = .acct L a) (hA : IsGrowth a.A) {x w0 : K}
    (h : SubForecast.addTransaction ttv default s
      { value := x, timing := some (.scalar (.num w0)), src := some available, dst := some p,
        strict := false } = (s', none)) :
    ∃ a', s'.pools p = .acct L a' ∧ Took σ a a' [(w0, x)] ∧ Good s' := by
  obtain ⟨h0, h1, v, src', dst', hor, hadd⟩ := request_one ttv default h
  obtain ⟨w, hdate, hw, hamt, -, -, -, hg, hkind⟩ := add1_effect ttv hs hadd
  have hia : Inv a := by have := hs.pools p; rw [ha] at this; exact this
  have hk' := hkind p
  cases hq : s'.pools p with
  | dict f d => rw [ha, hq] at hk'; exact absurd hk' (by simp [SameKind])
  | acct L' a' =>
    rw [ha, hq] at hk'
    obtain ⟨rfl, hsame⟩ := hk'
    have hia' : Inv a' := by have := hg.pools p; rw [hq] at this; exact this
    have hv : ∀ t, Dict.val a'.txns t = Dict.val a.txns t + if w = t then x else 0 := by
      intro t
      have := hamt p t
      unfold amount at this
      rw [ha, hq] at this
      simp only [Pool.txns] at this
      rw [this]
      have hne : (some available : Option P) ≠ some p := fun e => hp (Option.some.inj e).symm
      rcases hor with ⟨-, rfl, rfl, rfl⟩ | ⟨-, rfl, rfl, rfl⟩ <;> simp only [ind, hne, if_true, if_false] <;> congr 2 <;> ring
    refine ⟨a', rfl, ⟨hsame.symm, hia', by simpa [Dict.keys] using ⟨h0, h1⟩, fun hs1 hx => ?_, fun hk hs1 hx => ?_⟩, hg⟩
    · exact hs1.upd (hx (w0, x) (by simp)) hv
    · have hx0 : σ * x ≤ 0 := hx (w0, x) (by simp)
      refine ⟨hs1.upd (by linarith) hv, ?_⟩
      rw [grown_upd a.A hia.tx.wf hia'.tx.wf hv 1]
      simp only [List.map_cons, List.map_nil, List.sum_cons, List.sum_nil, add_zero]
      have hlate : w ≤ 1 → σ * x * a.A (1 - w0) ≤ σ * x * a.A (1 - w) := by
        intro hw1
        rcases hk with hmono | ⟨hanti, hσ, b, hb, hb0⟩
        · exact mul_le_mul_of_nonpos_left (hmono (by linarith)) hx0
        · rcases eq_or_ne x 0 with rfl | hx1
          · simp
          · have hxn : x < 0 := lt_of_le_of_ne (nonpos_of_mul_nonpos_right hx0 hσ) hx1
            rcases hor with ⟨-, rfl, rfl, rfl⟩ | ⟨h2, -⟩
            · have hsg : Signed (-1) a.txns := by
                intro t
                have := hs1 t
                have : Dict.val a.txns t ≤ 0 := by
                  by_contra hc
                  push Not at hc
                  have := mul_pos hσ hc
                  linarith
                linarith
              unfold dateFor at hdate
              simp only [Bool.false_eq_true, if_false, ha] at hdate
              rw [not_postponed ttv hia hA hanti hb hb0 hsg h0 h1 hdate]
            · exact absurd h2 (not_le.2 hxn)
      have hpos := mul_nonneg (neg_nonneg.2 hx0) (hA.pos (1 - w0)).le
      by_cases hw1 : w ≤ 1
      · rw [if_pos hw1]
        have := hlate hw1
        linarith
      · rw [if_neg hw1]
        linarith

theorem Took.trans {σ : K} {a a' a'' : Acct K} {d e : Dict K K} (h : Took σ a a' d)
    (h' : Took σ a' a'' e) : Took σ a a'' (d ++ e) := by
  refine ⟨h'.same.trans h.same, h'.inv, fun k hk => ?_, fun hs hx => ?_, fun hk hs hx => ?_⟩
  · rw [Dict.keys, List.map_append, List.mem_append] at hk
    exact hk.elim (h.dates k) (h'.dates k)
  · exact h'.toward (h.toward hs fun x hx' => hx x (by simp [hx'])) fun x hx' => hx x (by simp [hx'])
  · obtain ⟨h1, h2⟩ := h.drain hk hs fun x hx' => hx x (by simp [hx'])
    obtain ⟨h3, h4⟩ := h'.drain (hk.congr h.same) h1 fun x hx' => hx x (by simp [hx'])
    refine ⟨h3, ?_⟩
    rw [(same_A h.same).1] at h4
    rw [List.map_append, List.sum_append]
    linarith

/-- Several transactions between `available` and account `p`. -/
theorem series_took {σ : K} {txs : Dict K K} {s s' : St P K} (hs : Good s) {available p : P}
    (hp : p ≠ available) {L : Limits K} {a : Acct K} (ha : s.pools p = .acct L a)
    (hA : IsGrowth a.A)
    (h : SubForecast.addTransactions ttv default s txs (some available) (some p) false
      = (s', none)) :
    ∃ a', s'.pools p = .acct L a' ∧ Took σ a a' txs ∧ Good s' := by
  unfold SubForecast.addTransactions at h
  induction txs generalizing s a with
  | nil =>
    cases h
    exact ⟨a, ha, Took.refl (by have := hs.pools p; rw [ha] at this; exact this), hs⟩
  | cons kv l ih =>
    obtain ⟨s1, h1, h2⟩ := forEach_cons_ok h
    obtain ⟨a1, e1, e2, e3⟩ := one_took (σ := σ) ttv default hs hp ha hA h1
    obtain ⟨a2, f1, f2, f3⟩ := ih e3 e1 (by rw [(same_A e2.same).1]; exact hA) h2
    exact ⟨a2, f1, e2.trans f2, f3⟩

end Forecaster.SubForecast

namespace Forecaster.CashFlow

open Forecaster Forecaster.Timing Forecaster.Account Forecaster.SubForecast

variable {K : Type} [Field K] [LinearOrder K] [IsStrictOrderedRing K]
variable {P : Type} [DecidableEq P]
variable (ttv : Acct K → K → K → Except PyErr (Ext K)) (default : Dict K K)

theorem moveAll_took {σ : K} {txs : Dict P (Dict K K)} (hwf : Dict.WF txs) {s s' : St P K}
    (hs : Good s) {available p : P} (hp : p ≠ available) {L : Limits K} {a : Acct K}
    (ha : s.pools p = .acct L a) (hA : IsGrowth a.A)
    (h : moveAll ttv default available s txs = (s', none)) :
    ∃ a', s'.pools p = .acct L a' ∧ Took σ a a' ((Dict.get? txs p).getD []) := by
  unfold moveAll at h
  induction txs generalizing s a with
  | nil =>
    cases h
    exact ⟨a, ha, Took.refl (by have := hs.pools p; rw [ha] at this; exact this)⟩
  | cons e l ih =>
    obtain ⟨s1, h1, h2⟩ := forEach_cons_ok h
    obtain ⟨hn, hl⟩ := Dict.wf_cons.1 hwf
    rw [Dict.get?_cons]
    by_cases he : e.1 = p
    · subst he
      obtain ⟨a1, e1, e2, e3⟩ := series_took (σ := σ) ttv default hs hp ha hA h1
      obtain ⟨a2, f1, f2⟩ := ih hl e3 e1 (by rw [(same_A e2.same).1]; exact hA) h2
      rw [Dict.get?_eq_none.2 hn] at f2
      refine ⟨a2, f1, ?_⟩
      have := e2.trans f2
      simpa using this
    · rw [if_neg he]
      have hf := series_frame ttv default e.2 (src := some available) (dst := some e.1) false s
        (p := p) (fun c => hp (Option.some.inj c).symm) (fun c => he (Option.some.inj c))
      have hg := (series_effect ttv default hs h1).2.1
      rw [h1] at hf
      exact ih hl hg (hf.trans ha) hA h2

theorem update_frame {available p : P} (hp : p ≠ available) (tax : P → Pool K → Except PyErr K)
    {f f' : Alloc P K} {q : P} {d : Dict K K} {o : K} (hs : Good f.s)
    (h : updateTaxWithheld ttv default available tax f q d o = (f', none)) :
    f'.s.pools p = f.s.pools p ∧ Good f'.s := by
  unfold updateTaxWithheld at h
  cases h1 : tax q (f.s.pools q) with
  | error e => rw [h1] at h; simp at h
  | ok x =>
    rw [h1] at h
    simp only at h
    split_ifs at h with hx
    · cases h; exact ⟨rfl, hs⟩
    · cases h2 : transactionsFromArg (.dict d) (x - o) with
      | error e => rw [h2] at h; simp at h
      | ok t =>
        rw [h2] at h
        simp only at h
        rcases h3 : SubForecast.addTransactions ttv default f.s t none (some available) false with
          ⟨s', _ | e⟩
        · rw [h3] at h
          cases h
          have hf := series_frame ttv default t (src := none) (dst := some available) false f.s
            (p := p) (by simp) (fun c => hp (Option.some.inj c).symm)
          rw [h3] at hf
          exact ⟨hf, (series_effect ttv default hs h3).2.1⟩
        · rw [h3] at h; simp at h

theorem withdrawAll_took {σ : K} {txs : Dict P (Dict K K)} (hwf : Dict.WF txs)
    {tax : P → Pool K → Except PyErr K} {old : Dict P K} {f f' : Alloc P K}
    (hs : Good f.s) {available p : P} (hp : p ≠ available) {L : Limits K} {a : Acct K}
    (ha : f.s.pools p = .acct L a) (hA : IsGrowth a.A)
    (h : withdrawAll ttv default available tax old f txs = (f', none)) :
    ∃ a', f'.s.pools p = .acct L a' ∧ Took σ a a' ((Dict.get? txs p).getD []) := by
  induction txs generalizing f a with
  | nil =>
    cases h
    exact ⟨a, ha, Took.refl (by have := hs.pools p; rw [ha] at this; exact this)⟩
  | cons e l ih =>
    obtain ⟨hn, hl⟩ := Dict.wf_cons.1 hwf
    unfold withdrawAll at h
    rcases h1 : SubForecast.addTransactions ttv default f.s e.2 (some available) (some e.1) false
      with ⟨s1, _ | err⟩
    · rw [h1] at h
      simp only at h
      cases h2 : Dict.get? old e.1 with
      | none => rw [h2] at h; simp at h
      | some o =>
        rw [h2] at h
        simp only at h
        rcases h3 : updateTaxWithheld ttv default available tax { f with s := s1 } e.1 e.2 o with
          ⟨f1, _ | err⟩
        · rw [h3] at h
          simp only at h
          have hg := (series_effect ttv default hs h1).2.1
          obtain ⟨u1, u2⟩ := update_frame ttv default hp tax (f := { f with s := s1 }) hg h3
          rw [Dict.get?_cons]
          by_cases he : e.1 = p
          · subst he
            obtain ⟨a1, e1, e2, e3⟩ := series_took (σ := σ) ttv default hs hp ha hA h1
            obtain ⟨a2, f1, f2⟩ := ih hl u2 (u1.trans e1) (by rw [(same_A e2.same).1]; exact hA)
              h
            rw [Dict.get?_eq_none.2 hn] at f2
            refine ⟨a2, f1, ?_⟩
            have := e2.trans f2
            simpa using this
          · rw [if_neg he]
            have hf := series_frame ttv default e.2 (src := some available) (dst := some e.1) false
              f.s (p := p) (fun c => hp (Option.some.inj c).symm) (fun c => he (Option.some.inj c))
            rw [h1] at hf
            exact ih hl u2 (u1.trans (hf.trans ha)) hA h
        · rw [h3] at h; simp at h
    · rw [h1] at h; simp at h

end Forecaster.CashFlow

namespace Forecaster.Household

open Forecaster Forecaster.Timing Forecaster.Account Forecaster.SubForecast Forecaster.CashFlow

variable {K : Type} [Field K] [LinearOrder K] [IsStrictOrderedRing K]
variable {N A : Type} [DecidableEq N] [DecidableEq A]

theorem get?_plan (d : Dict A (Dict K K)) (a : A) : Dict.get? (plan d) (some a) = Dict.get? d a := by
  induction d with
  | nil => rfl
  | cons e l ih =>
    rw [Dict.get?_cons, show plan (e :: l) = (some e.1, e.2) :: plan l from rfl, Dict.get?_cons, ih]
    by_cases h : e.1 = a <;> simp [h]

theorem call_saving_took {E : Env N A K} {w w' : Home N A K} {av av' : Dict K K} (hb : Books w av)
    (hi : Idle (w.sub .saving)) {p : Dict A (Dict K K)}
    (hp : E.saving (w.sub .saving).year (pools E w av) = .ok p) (hwf : Dict.WF p)
    (h : call E .saving w av = .ok (w', av')) {σ : K} {a : A} (hA : IsGrowth (w.accounts a).A) :
    Took σ (w.accounts a) (w'.accounts a) ((Dict.get? p a).getD []) := by
  have hg := good_enter (E := E) hb hi
  simp only [call] at h
  obtain ⟨h1, h2⟩ := finish_ok h
  obtain ⟨x, hx, -⟩ := call_first hg hi.2 none
  unfold savingCall at h1 h2
  simp only [enterAlloc, hx] at h1 h2
  have hpl : planOf (E.saving (w.sub .saving).year (enter E w .saving av).pools) = .ok (plan p) := by
    show planOf (E.saving _ (pools E w av)) = _
    rw [hp]; rfl
  simp only [hpl] at h1 h2
  rcases hm : moveAll E.ttv (E.default .saving) none
    { enter E w .saving av with called := true, totalAvailable := x } (plan p) with ⟨s', _ | e⟩
  · rw [hm] at h2
    obtain ⟨a', e1, e2⟩ := moveAll_took (σ := σ) E.ttv (E.default .saving) (wf_plan hwf)
      (good_begin hg x) (p := some a) (by simp) (L := E.limits a (w.accounts a))
      (a := w.accounts a) rfl hA hm
    rw [get?_plan] at e2
    have : w' = _ := congrArg Prod.fst h2
    rw [this]
    simp only [leave, accountsAfter, e1]
    exact e2
  · rw [hm] at h1; simp at h1

theorem call_withdrawal_took {E : Env N A K} {w w' : Home N A K} {av av' : Dict K K}
    (hb : Books w av) (hi : Idle (w.sub .withdrawal)) {p : Dict A (Dict K K)}
    (hp : E.withdrawal (w.sub .withdrawal).year (pools E w av) = .ok p) (hwf : Dict.WF p)
    (h : call E .withdrawal w av = .ok (w', av')) {σ : K} {a : A}
    (hA : IsGrowth (w.accounts a).A) :
    Took σ (w.accounts a) (w'.accounts a) ((Dict.get? p a).getD []) := by
  have hg := good_enter (E := E) hb hi
  simp only [call] at h
  obtain ⟨h1, h2⟩ := finish_ok h
  obtain ⟨x, hx, -⟩ := call_first hg hi.2 none
  unfold withdrawalCall at h1 h2
  simp only [enterAlloc, hx] at h1 h2
  have hpl : planOf (E.withdrawal (w.sub .withdrawal).year (enter E w .withdrawal av).pools)
      = .ok (plan p) := by
    show planOf (E.withdrawal _ (pools E w av)) = _
    rw [hp]; rfl
  simp only [hpl] at h1 h2
  cases ho : taxSnapshot (poolTax E) (enter E w .withdrawal av).pools (E.assets.map some) with
  | error e => rw [ho] at h1; simp at h1
  | ok old =>
    simp only [ho] at h1 h2
    generalize hm : withdrawAll (P := Option A) (K := K) E.ttv _ _ _ _ _ _ = r at h1 h2
    obtain ⟨f', o⟩ := r
    simp only [Prod.mk.injEq, true_and] at h1
    subst h1
    obtain ⟨a', e1, e2⟩ := withdrawAll_took (σ := σ) E.ttv (E.default .withdrawal) (wf_plan hwf)
      (good_begin hg x) (p := some a) (by simp)
      (L := E.limits a (w.accounts a)) (a := w.accounts a) rfl hA hm
    rw [get?_plan] at e2
    have : w' = _ := congrArg Prod.fst h2
    rw [this]
    simp only [leave, accountsAfter, e1]
    exact e2

end Forecaster.Household
