import Verif.Props.Longer
import Verif.Lemmas.Answers

/-!
# C111: the order in which accounts are kept

`forecaster/forecast/base.py`, `forecaster/forecast/{withdrawal,tax}.py`: accounts and people are kept
in `set`s, whose order of iteration differs from one run of Python to the next. In the model of a
household the limits of an account depend on that account only; for registered accounts that share
their contribution room the order does matter (`C112_order_refuted`).
-/

set_option linter.unusedSectionVars false

namespace Forecaster.Household

open Forecaster Forecaster.Timing Forecaster.Account Forecaster.SubForecast Forecaster.CashFlow
open Forecaster.Forecast (FS scenarioYears)

variable {K : Type} [Field K] [LinearOrder K] [IsStrictOrderedRing K]
variable {N A : Type} [DecidableEq N] [DecidableEq A]

/-- Specification: the same household, whose assets and debts, and the accounts of whose people, are
kept in another order. -/
structure Reordered (E E' : Env N A K) : Prop where
  assets : E.assets.Perm E'.assets
  debts : E.debts.Perm E'.debts
  earner : ∀ i y, ∃ accounts, (E.earner i y).accounts.Perm accounts ∧
    E'.earner i y = { E.earner i y with accounts }
  rest : E' = { E with assets := E'.assets, debts := E'.debts, earner := E'.earner }

theorem Reordered.symm {E E' : Env N A K} (h : Reordered E E') : Reordered E' E where
  assets := h.assets.symm
  debts := h.debts.symm
  earner i y := by
    obtain ⟨l, hl, he⟩ := h.earner i y
    exact ⟨(E.earner i y).accounts, by rw [he]; exact hl.symm, by rw [he]⟩
  rest := by
    have := h.rest
    cases E; cases E'
    simp only [Env.mk.injEq] at this ⊢
    simp [this]

/-! ### Loops over a set -/

theorem bind_ok {α β : Type} {x : Except PyErr α} {f : α → Except PyErr β} {r : β} :
    (x >>= f) = .ok r ↔ ∃ a, x = .ok a ∧ f a = .ok r := by
  cases x with
  | error e => simp
  | ok a => simp

/-- A loop whose steps can be swapped does not depend on the order. -/
theorem foldlM_perm {S α : Type} {f : S → α → Except PyErr S}
    (hf : ∀ s a b r, (f s a >>= fun s => f s b) = .ok r → (f s b >>= fun s => f s a) = .ok r)
    {l l' : List α} (h : l.Perm l') : ∀ s r, l.foldlM f s = .ok r → l'.foldlM f s = .ok r := by
  induction h with
  | nil => exact fun s r h => h
  | cons a _ ih =>
    intro s r h
    rw [List.foldlM_cons] at h ⊢
    cases hs : f s a with
    | error e => rw [hs] at h; simp at h
    | ok s1 => rw [hs, ok_bind] at h; rw [ok_bind]; exact ih _ _ h
  | swap a b l =>
    intro s r h
    simp only [List.foldlM_cons] at h ⊢
    cases hb : (f s b >>= fun s => f s a) with
    | error e =>
      rw [← bind_assoc, hb] at h; simp at h
    | ok s1 =>
      rw [← bind_assoc, hb, ok_bind] at h
      rw [← bind_assoc, hf _ _ _ _ hb, ok_bind]; exact h
  | trans _ _ ih1 ih2 => exact fun s r h => ih2 _ _ (ih1 _ _ h)

theorem put_comm {X Y : Type} [DecidableEq X] (f : X → Y) {x x' : X} (h : x ≠ x') (y y' : Y) :
    put (put f x y) x' y' = put (put f x' y') x y := by
  funext z
  unfold put
  by_cases h1 : z = x
  · subst h1; simp [h]
  · simp [h1]

theorem put_max (f : N → ℤ) (i j : N) (x y : ℤ) :
    put (put f i (max (f i) x)) j (max (put f i (max (f i) x) j) y)
      = put (put f j (max (f j) y)) i (max (put f j (max (f j) y) i) x) := by
  by_cases h : i = j
  · subst h
    funext z
    unfold put
    by_cases hz : z = i
    · simp only [hz, if_true, max_right_comm]
    · simp [hz]
  · rw [put_other _ (Ne.symm h), put_other _ h, put_comm _ h]

theorem advance_ok {E : Env N A K} {a : A} {w r : Home N A K} :
    advance E (.account a) w = .ok r ↔ ∃ x, Account.nextYear (w.accounts a) = .ok x ∧
      r = { w with accounts := put w.accounts a x, personYear := bringOwner E w a } := by
  simp only [advance]
  cases ha : Account.nextYear (w.accounts a) with
  | error e => simp
  | ok x => simp [eq_comm]

/-- Opening the new year of one account and of another. -/
theorem advance_comm {E : Env N A K} {a b : A} {w w1 r : Home N A K}
    (h1 : advance E (.account a) w = .ok w1) (h2 : advance E (.account b) w1 = .ok r) :
    ∃ w2, advance E (.account b) w = .ok w2 ∧ advance E (.account a) w2 = .ok r := by
  by_cases hab : a = b
  · subst hab; exact ⟨w1, h1, h2⟩
  · obtain ⟨x, hx, rfl⟩ := advance_ok.1 h1
    obtain ⟨y, hy, rfl⟩ := advance_ok.1 h2
    simp only [put_other _ (Ne.symm hab)] at hy
    refine ⟨_, advance_ok.2 ⟨y, hy, rfl⟩, advance_ok.2 ⟨x, ?_, ?_⟩⟩
    · simp only [put_other _ hab]; exact hx
    · simp only [put_comm _ hab, Home.mk.injEq, true_and, and_true]
      unfold bringOwner
      cases E.owner a <;> cases E.owner b <;>
        simp only [put_other _ hab, put_other _ (Ne.symm hab)]
      exact put_max _ _ _ _ _

theorem advance_other {E : Env N A K} {a b : A} (hab : b ≠ a) {w r : Home N A K}
    (h : advance E (.account a) w = .ok r) : r.accounts b = w.accounts b := by
  obtain ⟨x, -, rfl⟩ := advance_ok.1 h
  exact put_other _ hab _

theorem catchUp_other {E : Env N A K} {a b : A} (hab : b ≠ a) {Y : ℤ} (n : ℕ) :
    ∀ {w r : Home N A K}, Forecast.catchUp (world E) Y (.account a) n w = .ok r →
    r.accounts b = w.accounts b := by
  induction n with
  | zero =>
    intro w r h
    rw [Forecast.catchUp_eq] at h
    split_ifs at h
    cases h; rfl
  | succ n ih =>
    intro w r h
    rw [Forecast.catchUp_eq] at h
    split_ifs at h
    · obtain ⟨w1, h1, h2⟩ := bind_ok.1 h
      rw [ih h2, advance_other hab h1]
    · cases h; rfl

theorem catchUp_advance {E : Env N A K} {a b : A} (hab : b ≠ a) {Y : ℤ} (n : ℕ) :
    ∀ {w w1 r : Home N A K}, advance E (.account a) w = .ok w1 →
    Forecast.catchUp (world E) Y (.account b) n w1 = .ok r →
    ∃ w2, Forecast.catchUp (world E) Y (.account b) n w = .ok w2 ∧
      advance E (.account a) w2 = .ok r := by
  have hy : ∀ {w w1 : Home N A K}, advance E (.account a) w = .ok w1 →
      (world E).year (.account b) w1 = (world E).year (.account b) w := by
    intro w w1 h
    simp only [world, yearOf]
    rw [advance_other hab h]
  induction n with
  | zero =>
    intro w w1 r h1 h2
    rw [Forecast.catchUp_eq] at h2 ⊢
    rw [hy h1] at h2
    split_ifs at h2 with hlt
    cases h2
    exact ⟨w, by rw [if_neg hlt], h1⟩
  | succ n ih =>
    intro w w1 r h1 h2
    rw [Forecast.catchUp_eq] at h2
    rw [hy h1] at h2
    split_ifs at h2 with hlt
    · obtain ⟨v, hv, h3⟩ := bind_ok.1 h2
      obtain ⟨v1, hv1, hv2⟩ := advance_comm h1 hv
      obtain ⟨w2, hw2, h4⟩ := ih hv2 h3
      refine ⟨w2, ?_, h4⟩
      rw [Forecast.catchUp_eq, if_pos hlt]
      exact bind_ok.2 ⟨v1, hv1, hw2⟩
    · cases h2
      exact ⟨w, by rw [Forecast.catchUp_eq, if_neg hlt], h1⟩

theorem catchUp_comm {E : Env N A K} {a b : A} (hab : b ≠ a) {Y : ℤ} (m n : ℕ) :
    ∀ {w w1 r : Home N A K}, Forecast.catchUp (world E) Y (.account a) m w = .ok w1 →
    Forecast.catchUp (world E) Y (.account b) n w1 = .ok r →
    ∃ w2, Forecast.catchUp (world E) Y (.account b) n w = .ok w2 ∧
      Forecast.catchUp (world E) Y (.account a) m w2 = .ok r := by
  have hy : ∀ {w w1 : Home N A K}, Forecast.catchUp (world E) Y (.account b) n w = .ok w1 →
      (world E).year (.account a) w1 = (world E).year (.account a) w := by
    intro w w1 h
    simp only [world, yearOf]
    rw [catchUp_other (Ne.symm hab) n h]
  induction m with
  | zero =>
    intro w w1 r h1 h2
    rw [Forecast.catchUp_eq] at h1
    split_ifs at h1 with hlt
    cases h1
    refine ⟨r, h2, ?_⟩
    rw [Forecast.catchUp_eq, hy h2, if_neg hlt]
  | succ m ih =>
    intro w w1 r h1 h2
    rw [Forecast.catchUp_eq] at h1
    split_ifs at h1 with hlt
    · obtain ⟨v, hv, h3⟩ := bind_ok.1 h1
      obtain ⟨v1, hv1, h4⟩ := ih h3 h2
      obtain ⟨w2, hw2, h5⟩ := catchUp_advance hab n hv hv1
      refine ⟨w2, hw2, ?_⟩
      rw [Forecast.catchUp_eq, hy hw2, if_pos hlt]
      exact bind_ok.2 ⟨v1, h5, h4⟩
    · cases h1
      refine ⟨r, h2, ?_⟩
      rw [Forecast.catchUp_eq, hy h2, if_neg hlt]

/-- Bringing the accounts up to date. -/
theorem bring_perm {E : Env N A K} {Y : ℤ} {l l' : List A} (h : l.Perm l') (w r : Home N A K)
    (hr : (l.map Comp.account).foldlM (Forecast.bring (world E) Y) w = .ok r) :
    (l'.map Comp.account).foldlM (Forecast.bring (world E) Y) w = .ok r := by
  rw [List.foldlM_map] at hr ⊢
  refine foldlM_perm (fun s a b r h => ?_) h w r hr
  by_cases hab : b = a
  · subst hab; exact h
  · obtain ⟨w1, h1, h2⟩ := bind_ok.1 h
    unfold Forecast.bring at h1 h2
    have e : (world E).year (.account b) w1 = (world E).year (.account b) s := by
      simp only [world, yearOf]
      rw [catchUp_other hab _ h1]
    rw [e] at h2
    obtain ⟨w2, h3, h4⟩ := catchUp_comm hab _ _ h1 h2
    refine bind_ok.2 ⟨w2, h3, ?_⟩
    unfold Forecast.bring
    have e : (world E).year (.account a) w2 = (world E).year (.account a) s := by
      simp only [world, yearOf]
      rw [catchUp_other (Ne.symm hab) _ h3]
    rw [e]
    exact h4

/-- Reading something of each of them. -/
theorem mapM_perm {α β : Type} {f : α → Except PyErr β} {l l' : List α} (h : l.Perm l') :
    ∀ r, l.mapM f = .ok r → ∃ r', l'.mapM f = .ok r' ∧ r.Perm r' := by
  induction h with
  | nil => exact fun r h => ⟨r, h, List.Perm.refl _⟩
  | cons a _ ih =>
    intro r h
    simp only [List.mapM_cons, bind_ok] at h ⊢
    obtain ⟨x, hx, xs, hxs, h⟩ := h
    cases h
    obtain ⟨xs', h1, h2⟩ := ih _ hxs
    exact ⟨x :: xs', ⟨x, hx, xs', h1, rfl⟩, h2.cons x⟩
  | swap a b l =>
    intro r h
    simp only [List.mapM_cons, bind_ok] at h ⊢
    obtain ⟨x, hx, _, ⟨y, hy, ys, hys, h1⟩, h⟩ := h
    cases h1
    cases h
    exact ⟨y :: x :: ys, ⟨y, hy, x :: ys, ⟨x, hx, ys, hys, rfl⟩, rfl⟩, List.Perm.swap _ _ _⟩
  | trans _ _ ih1 ih2 =>
    intro r h
    obtain ⟨r1, h1, h2⟩ := ih1 _ h
    obtain ⟨r2, h3, h4⟩ := ih2 _ h1
    exact ⟨r2, h3, h2.trans h4⟩

/-! ### The calls -/

theorem withdrawAll_congr {P : Type} [DecidableEq P] (ttv : Acct K → K → K → Except PyErr (Ext K))
    (default : Dict K K) (available : P) (tax : P → Pool K → Except PyErr K) {old old' : Dict P K}
    (h : ∀ p, Dict.get? old p = Dict.get? old' p) (txs : Dict P (Dict K K)) : ∀ f : Alloc P K,
    withdrawAll ttv default available tax old f txs
      = withdrawAll ttv default available tax old' f txs := by
  induction txs with
  | nil => intro f; rfl
  | cons e txs ih =>
    intro f
    simp only [withdrawAll, h, ih]

theorem withdrawal_perm {P : Type} [DecidableEq P] (ttv : Acct K → K → K → Except PyErr (Ext K))
    (default : Dict K K) (available : P) (strategy : (P → Pool K) → Except PyErr (Dict P (Dict K K)))
    (tax : P → Pool K → Except PyErr K) {l l' : List P} (hl : l.Perm l') {f f' : Alloc P K}
    (h : withdrawalCall ttv default available strategy tax l f = (f', none)) :
    withdrawalCall ttv default available strategy tax l' f = (f', none) := by
  unfold withdrawalCall at h ⊢
  cases hc : SubForecast.call f.s available with
  | mk s' o =>
  rw [hc] at h
  cases o with
  | some e => cases h
  | none =>
    simp only at h ⊢
    cases hs : strategy s'.pools with
    | error e => rw [hs] at h; cases h
    | ok txs =>
      rw [hs] at h
      simp only at h ⊢
      cases ht : taxSnapshot tax s'.pools l with
      | error e => rw [ht] at h; cases h
      | ok old =>
        rw [ht] at h
        have k := taxSnapshot_spec ht
        obtain ⟨old', ht', -⟩ := snapshot_ok (tax := tax) (pools := s'.pools) (l := l')
          (fun p hp => by
            obtain ⟨o, ho⟩ := Dict.mem_keys_iff.1 ((k p).1.2 (hl.mem_iff.2 hp))
            exact ⟨o, (k p).2 o ho⟩)
        have k' := taxSnapshot_spec ht'
        rw [ht']
        simp only at h ⊢
        rw [← h]
        refine withdrawAll_congr _ _ _ _ (fun p => ?_) _ _
        by_cases hp : p ∈ l
        · obtain ⟨o, ho⟩ := Dict.mem_keys_iff.1 ((k p).1.2 hp)
          obtain ⟨o', ho'⟩ := Dict.mem_keys_iff.1 ((k' p).1.2 (hl.mem_iff.1 hp))
          have e1 := (k p).2 o ho
          rw [(k' p).2 o' ho'] at e1
          cases e1
          rw [ho, ho']
        · rw [Dict.get?_eq_none.2 (fun h => hp ((k p).1.1 h)),
            Dict.get?_eq_none.2 (fun h => hp (hl.mem_iff.2 ((k' p).1.1 h)))]

theorem earners_like {E E' : Env N A K} (h : Reordered E E') (w : Home N A K) :
    List.Forall₂ (fun e e' : Earner (Option A) K => e.accounts.Perm e'.accounts ∧
      e' = { e with accounts := e'.accounts }) (earners E w) (earners E' w) := by
  have hp : E'.people = E.people := by rw [h.rest]
  unfold earners
  rw [hp]
  induction E.people with
  | nil => exact .nil
  | cons i l ih =>
    refine .cons ?_ ih
    obtain ⟨accts, h1, h2⟩ := h.earner i (w.personYear i)
    simp only [h2]
    exact ⟨h1, trivial⟩

/-- What does not look at a person's accounts. -/
theorem map_like {β : Type} (g : Earner (Option A) K → β) (hg : ∀ e l, g { e with accounts := l } = g e)
    {E E' : Env N A K} (h : Reordered E E') (w : Home N A K) :
    (earners E' w).map g = (earners E w).map g := by
  have := earners_like h w
  generalize earners E w = l at this ⊢
  generalize earners E' w = l' at this ⊢
  induction this with
  | nil => rfl
  | cons h1 _ ih => rw [List.map_cons, List.map_cons, ih, h1.2, hg]

theorem netIncome_like {E E' : Env N A K} (h : Reordered E E') (w : Home N A K) :
    netIncome (earners E' w) = netIncome (earners E w) := by
  unfold netIncome
  rw [foldl_add, foldl_add, map_like Earner.net (fun _ _ => rfl) h w]

theorem call_like {E E' : Env N A K} (h : Reordered E E') {k : Kind} {w : Home N A K} {av : Dict K K}
    {r : Home N A K × Dict K K} (hr : call E k w av = .ok r) : call E' k w av = .ok r := by
  have r1 : E'.ttv = E.ttv := by rw [h.rest]
  have r2 : E'.default = E.default := by rw [h.rest]
  have r3 : E'.limits = E.limits := by rw [h.rest]
  have r4 : E'.expenses = E.expenses := by rw [h.rest]
  have r5 : E'.saving = E.saving := by rw [h.rest]
  have r6 : E'.withdrawal = E.withdrawal := by rw [h.rest]
  have r7 : E'.accountTax = E.accountTax := by rw [h.rest]
  have hpool : pools E' w av = pools E w av := by
    funext p
    cases p <;> simp [pools, r3]
  have hen : ∀ k, enter E' w k av = enter E w k av := fun k => by unfold enter; rw [hpool]
  have hea : ∀ k, enterAlloc E' w k av = enterAlloc E w k av := fun k => by
    unfold enterAlloc; rw [hen]
  have htax : poolTax E' = poolTax E := by
    funext p q
    cases p <;> cases q <;> simp [poolTax, r7]
  cases k with
  | income =>
    simp only [call, incomeCall, incomeReqs, hen, r1, r2] at hr ⊢
    rw [map_like (fun e => ({ value := e.net, timing := some (.timing e.timing), dst := some none } :
      Req (Option A) K)) (fun _ _ => rfl) h w]
    exact hr
  | living =>
    have hq : ∀ x, livingReqs (none : Option A) (earners E' w) x = livingReqs none (earners E w) x := by
      intro x
      unfold livingReqs
      have hn := netIncome_like h w
      have hm := map_like (fun e => (e.net, e.timing)) (fun _ _ => rfl) h w
      cases he : earners E w with
      | nil => rw [he] at hm; rw [List.map_eq_nil_iff.1 hm]
      | cons e l =>
        cases he' : earners E' w with
        | nil => rw [he, he'] at hm; cases hm
        | cons e' l' =>
          rw [he, he'] at hn
          simp only [hn]
          rw [← he, ← he']
          split_ifs
          · rfl
          · cases x with
            | error e => rfl
            | ok x =>
              simp only [ok_bind]
              exact congrArg Except.ok (map_like (fun e => ({
                value := x * (e.net / netIncome (earners E w))
                timing := some (.timing e.timing)
                src := some none } : Req (Option A) K)) (fun _ _ => rfl) h w)
    simp only [call, livingCall, hen, r1, r2, r4, hq] at hr ⊢
    exact hr
  | saving =>
    simp only [call, hea, r1, r2, r5] at hr ⊢
    exact hr
  | withdrawal =>
    simp only [call, hea, r1, r2, r6, htax] at hr ⊢
    obtain ⟨h1, h2⟩ := finish_ok hr
    rw [withdrawal_perm _ _ _ _ _ (h.assets.map some) h1, h2]
    rfl
  | tax =>
    simp only [call, hen] at hr ⊢
    exact hr

/-! ### The new year -/

theorem adjustment_like {E E' : Env N A K} (h : Reordered E E') {w : Home N A K} {x : K}
    (hx : adjustment E w = .ok x) : adjustment E' w = .ok x := by
  have r1 : E'.owing = E.owing := by rw [h.rest]
  have r2 : E'.accountTax = E.accountTax := by rw [h.rest]
  have ht : taxOf E' w = taxOf E w := by
    funext p
    cases p <;> simp [taxOf, r2]
  unfold adjustment CashFlow.taxAdjustment at hx ⊢
  rw [r1, ht]
  have hw : taxWithheld (earners E' w) (taxOf E w) = taxWithheld (earners E w) (taxOf E w) := by
    have hf := map_like Earner.withheld (fun _ _ => rfl) h w
    have hd : ((earners E' w).flatMap Earner.accounts).dedup.Perm
        ((earners E w).flatMap Earner.accounts).dedup := by
      refine List.Perm.dedup ?_
      have := earners_like h w
      generalize earners E w = l at this ⊢
      generalize earners E' w = l' at this ⊢
      induction this with
      | nil => exact List.Perm.refl _
      | cons h1 _ ih =>
        rw [List.flatMap_cons, List.flatMap_cons]
        exact h1.1.symm.append ih
    unfold taxWithheld
    cases he : earners E w with
    | nil => rw [he] at hf; rw [List.map_eq_nil_iff.1 hf]
    | cons e l =>
      cases he' : earners E' w with
      | nil => rw [he, he'] at hf; cases hf
      | cons e' l' =>
        simp only
        rw [← he, ← he', foldl_add, foldl_add, foldl_add, foldl_add, hf, (hd.map _).sum_eq]
  rw [hw]
  exact hx

theorem row_like {E E' : Env N A K} (h : Reordered E E') {w : Home N A K} {x : Row K}
    (hx : row E w = .ok x) : row E' w = .ok x := by
  have r1 : E'.owing = E.owing := by rw [h.rest]
  unfold row at hx ⊢
  obtain ⟨bs, hbs, hx⟩ := bind_ok.1 hx
  obtain ⟨bs', hbs', hp⟩ := mapM_perm h.assets _ hbs
  refine bind_ok.2 ⟨bs', hbs', ?_⟩
  have hpr : Forecast.principal bs' = Forecast.principal bs := by
    unfold Forecast.principal
    exact (foldl_add id bs' 0).trans ((by rw [(hp.map id).sum_eq] :
      (0 : K) + (bs'.map id).sum = 0 + (bs.map id).sum).trans (foldl_add id bs 0).symm)
  rw [r1, netIncome_like h w, hpr]
  exact hx

theorem bring_like {E E' : Env N A K} (h : Reordered E E') (Y : ℤ) :
    Forecast.bring (world E') Y = Forecast.bring (world E) Y := by
  have r1 : E'.owner = E.owner := by rw [h.rest]
  have ha : advance E' = advance E := by
    funext c w
    cases c <;> simp [advance, bringOwner, r1]
  have hy : (world E').year = (world E).year := rfl
  have hadv : (world E').advance = (world E).advance := ha
  have hc : ∀ (n : ℕ) (c : Comp N A) (w : Home N A K),
      Forecast.catchUp (world E') Y c n w = Forecast.catchUp (world E) Y c n w := by
    intro n
    induction n with
    | zero => intro c w; rw [Forecast.catchUp_eq, Forecast.catchUp_eq]; rfl
    | succ n ih =>
      intro c w
      rw [Forecast.catchUp_eq, Forecast.catchUp_eq]
      simp only [ih]
      rw [hy, hadv]
  funext w c
  exact hc _ _ _

theorem nextYear_like {E E' : Env N A K} (h : Reordered E E') {s s' : FS K (Home N A K)}
    (hs : Forecast.nextYear (world E) s = .ok s') : Forecast.nextYear (world E') s = .ok s' := by
  unfold Forecast.nextYear at hs ⊢
  obtain ⟨r, h1, hs⟩ := bind_ok.1 hs
  obtain ⟨w1, h2, hs⟩ := bind_ok.1 hs
  obtain ⟨w2, h3, hs⟩ := bind_ok.1 hs
  obtain ⟨av, h4, hs⟩ := bind_ok.1 hs
  refine bind_ok.2 ⟨r, ?_, bind_ok.2 ⟨w1, ?_, bind_ok.2 ⟨w2, ?_, bind_ok.2 ⟨av, ?_, hs⟩⟩⟩⟩
  · simp only [world, taxAdjustment] at h1 ⊢
    obtain ⟨x, hx, h1⟩ := bind_ok.1 h1
    exact bind_ok.2 ⟨x, adjustment_like h hx, h1⟩
  · simp only [world, record] at h2 ⊢
    obtain ⟨x, hx, h2⟩ := bind_ok.1 h2
    exact bind_ok.2 ⟨x, row_like h hx, h2⟩
  · rw [bring_like h]
    rw [List.foldlM_append] at h3 ⊢
    obtain ⟨w3, h5, h6⟩ := bind_ok.1 h3
    refine bind_ok.2 ⟨w3, ?_, ?_⟩
    · have hp : (world E').people = (world E).people := by
        simp only [world]; rw [h.rest]
      rw [hp]
      exact h5
    · exact bring_perm (h.assets.append h.debts).dedup _ _ h6
  · have e1 : (world E').refundTiming = (world E).refundTiming := by
      simp only [world]; rw [h.rest]
    have e2 : (world E').paymentTiming = (world E).paymentTiming := by
      simp only [world]; rw [h.rest]
    unfold Forecast.carryoverTax at h4 ⊢
    rw [e1, e2]
    exact h4

theorem world_call_like {E E' : Env N A K} (h : Reordered E E') {c : Comp N A} {w : Home N A K}
    {av : Dict K K} {r : Home N A K × Dict K K} (hr : (world E).call c w av = .ok r) :
    (world E').call c w av = .ok r := by
  cases c with
  | sub k => exact call_like h hr
  | person i => cases hr
  | account a => cases hr

theorem calls_like {E E' : Env N A K} (h : Reordered E E') {s s' : FS K (Home N A K)}
    (hs : Forecast.callSubforecasts (world E) s = .ok s') :
    Forecast.callSubforecasts (world E') s = .ok s' := by
  unfold Forecast.callSubforecasts at hs ⊢
  have hf : (world E').forecasts = (world E).forecasts := rfl
  rw [hf]
  generalize (world E).forecasts = l at hs ⊢
  induction l generalizing s with
  | nil => rw [List.foldlM_nil] at hs ⊢; exact hs
  | cons c l ih =>
    rw [List.foldlM_cons] at hs ⊢
    obtain ⟨s1, h1, hs⟩ := bind_ok.1 hs
    obtain ⟨r, h2, h1⟩ := bind_ok.1 h1
    refine bind_ok.2 ⟨s1, bind_ok.2 ⟨r, world_call_like h h2, h1⟩, ih hs⟩

theorem forecast_like {E E' : Env N A K} (h : Reordered E E') {initial : ℤ} {years : List ℤ}
    {accounts : A → Acct K} {s : FS K (Home N A K)}
    (hs : forecast E initial years accounts = .ok s) :
    forecast E' initial years accounts = .ok s := by
  unfold forecast Forecast.init at hs ⊢
  cases hl : years.max? with
  | none => rw [hl] at hs; cases hs
  | some last =>
    rw [hl] at hs
    simp only at hs ⊢
    have hrun : ∀ (n : ℕ) (s s' : FS K (Home N A K)),
        Forecast.runYears (world E) last n s = .ok s' →
        Forecast.runYears (world E') last n s = .ok s' := by
      intro n
      induction n with
      | zero => intro s s' h; rw [Forecast.runYears_eq] at h ⊢; simp only at h ⊢; exact h
      | succ n ih =>
        intro s s' h'
        rw [Forecast.runYears_eq] at h' ⊢
        split_ifs at h' ⊢ with hlt
        · simp only at h' ⊢
          obtain ⟨s1, h1, h'⟩ := bind_ok.1 h'
          obtain ⟨s2, h2, h'⟩ := bind_ok.1 h'
          exact bind_ok.2 ⟨s1, calls_like h h1, bind_ok.2 ⟨s2, nextYear_like h h2, ih _ _ h'⟩⟩
        · exact h'
    obtain ⟨s1, h1, h2⟩ := bind_ok.1 hs
    exact bind_ok.2 ⟨s1, hrun _ _ _ h1, calls_like h h2⟩

/-- **C111.** The order in which assets, debts and people's accounts happen to be kept makes no
difference to a forecast, provided the strategies give the same answers: it can be made with one
order exactly if it can be made with the other, and then every balance, every transaction, the cash,
the sub-forecasts and every figure of the report are the same. -/
theorem C111_order_of_accounts {E E' : Env N A K} (h : Reordered E E') (initial : ℤ)
    (years : List ℤ) (accounts : A → Acct K) (s : FS K (Home N A K)) :
    forecast E initial years accounts = .ok s ↔ forecast E' initial years accounts = .ok s :=
  ⟨forecast_like h, forecast_like h.symm⟩

/-! ### A couple -/

/-- The couple of C79, whose loan counts among the assets as well (so that two accounts are kept in
sets), with the accounts in the order `l` in every set. -/
def exKept (l : List Bool) : Env Bool Bool ℚ :=
  { exHome with
    assets := l
    debts := l
    earner := fun i y => { exHome.earner i y with accounts := l.map some } }

/-- The hypothesis is met by two households that are kept in different orders. -/
example : Reordered (exKept [true, false]) (exKept [false, true]) where
  assets := List.Perm.swap _ _ _
  debts := List.Perm.swap _ _ _
  earner _ _ := ⟨_, (List.Perm.swap _ _ _ : ([true, false] : List Bool).Perm [false, true]).map some, rfl⟩
  rest := rfl

/-- Their forecasts can be made, and do something. -/
example : ∀ l ∈ [[true, false], [false, true]],
    (forecast (exKept l) 2020 (scenarioYears 2020 3) exAccounts).map
      (fun s => (s.year, cash s, wealth exHome s)) = .ok (2022, 243 / 2, 49293 / 200) ∧
    (forecast (exKept l) 2020 (scenarioYears 2020 3) exAccounts).map
      (fun s => s.w.report.map fun r => (r.principal, r.tax)) = .ok [(50, 30), (72, 30)] := by
  decide +kernel

end Forecaster.Household
