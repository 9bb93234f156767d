import Verif.Model.RecordedForecast
import Verif.Lemmas.RecordedClose
import Verif.Props.RecordedYear

/-! Helper lemmas for `Verif/Props/RecordedForecast.lean`. -/

namespace Forecaster.Recorded

open Forecaster

variable {N A K : Type} [DecidableEq N] [DecidableEq A] [Field K] [LinearOrder K]
  [IsStrictOrderedRing K]

/-- A property reads only properties of lower rank. -/
def frank : FKey N A → ℕ
  | .base k => hrank k
  | .own .netWithdrawals | .own .taxAdjustment | .own .income | .own .expenses
  | .own .withdrawals | .own .tax => 6
  | .own .savings => 7
  | .own _ => 5

theorem frank_lt (k : FKey N A) : frank k < 8 := by
  rcases k with k | p
  · have := hrank_lt k; simp only [frank]; omega
  · cases p <;> simp [frank]

theorem respects_rename {κ κ' V : Type} {f : κ → κ'} {rank : κ → ℕ} {rank' : κ' → ℕ} {r : ℕ}
    {now : κ → ℤ} {now' : κ' → ℤ} (h1 : ∀ k, rank' (f k) = rank k) (h2 : ∀ k, now' (f k) = now k)
    (p : Prog κ V) : p.Respects rank r now → (p.rename f).Respects rank' r now' := by
  induction p with
  | done r => intro _; trivial
  | ask k next ih => exact fun h => ⟨by rw [h1]; exact h.1, fun v => ih v (h.2 v)⟩
  | past k y next ih => exact fun h => ⟨by rw [h2]; exact h.1, fun v => ih v (h.2 v)⟩

theorem within_rename {κ κ' V : Type} {f : κ → κ'} {D : κ → Prop} {D' : κ' → Prop}
    (h1 : ∀ k, D k → D' (f k)) (p : Prog κ V) : p.Within D → (p.rename f).Within D' := by
  induction p with
  | done r => intro _; trivial
  | ask k next ih => exact fun h => ⟨h1 _ h.1, fun v => ih v (h.2 v)⟩
  | past k y next ih => exact fun h => ⟨h1 _ h.1, fun v => ih v (h.2 v)⟩

theorem respects_fNum {rank : FKey N A → ℕ} {r : ℕ} {now : FKey N A → ℤ} {k : FKey N A}
    {f : K → Prog (FKey N A) (Val K)} (h : rank k < r) (hf : ∀ x, (f x).Respects rank r now) :
    (fNum k f).Respects rank r now := by
  refine ⟨h, fun v => ?_⟩
  cases v with
  | num x => exact hf x
  | txns d => trivial

theorem respects_fRet {rank : FKey N A → ℕ} {r : ℕ} {now : FKey N A → ℤ} (x : K) :
    (fRet x : Prog (FKey N A) (Val K)).Respects rank r now := trivial

theorem within_fRet {D : FKey N A → Prop} (x : K) :
    (fRet x : Prog (FKey N A) (Val K)).Within D := trivial

theorem respects_fSum {rank : FKey N A → ℕ} {r : ℕ} {now : FKey N A → ℤ} {ks : List (FKey N A)}
    {f : K → Prog (FKey N A) (Val K)} (h : ∀ k ∈ ks, rank k < r)
    (hf : ∀ x, (f x).Respects rank r now) : ∀ start : K, (fSum ks start f).Respects rank r now := by
  induction ks with
  | nil => exact hf
  | cons k ks ih =>
    intro start
    exact respects_fNum (h k List.mem_cons_self) fun x =>
      ih (fun q hq => h q (List.mem_cons_of_mem _ hq)) _

theorem respects_asks {r : ℕ} {now : FKey N A → ℤ} (hr : 5 ≤ r) (q : Asks N A K) :
    q.prog.Respects frank r now := by
  induction q with
  | done r => trivial
  | ask k next ih => exact ⟨lt_of_lt_of_le (hrank_lt k) hr, ih⟩

theorem planned_acyclic :
    Acyclic (planned : Sys (FObj N A) (FKey N A) (Val K) (FWorld N A K)) frank := by
  intro k years w
  rcases k with k | p
  · exact respects_rename (fun _ => rfl) (fun _ => rfl) _
      (household_acyclic k (fun o => years (.base o)) w.home)
  · have hb : ∀ ks : List (FKey N A), (∀ k ∈ ks, ∃ q, k = .base q) → ∀ k ∈ ks, frank k < 5 := by
      intro ks h k hk
      obtain ⟨q, rfl⟩ := h k hk
      exact hrank_lt q
    have hp : ∀ q : PProp, ∀ k ∈ ofPeople w q, frank k < 5 := by
      intro q
      refine hb _ fun k hk => ?_
      obtain ⟨i, _, rfl⟩ := List.mem_map.1 hk
      exact ⟨_, rfl⟩
    have ha : ∀ (q : AProp) (l : List A),
        ∀ k ∈ l.map (fun a => FKey.base (Key.account (N := N) a q)), frank k < 5 := by
      intro q l
      refine hb _ fun k hk => ?_
      obtain ⟨i, _, rfl⟩ := List.mem_map.1 hk
      exact ⟨_, rfl⟩
    show (ownGet _ w p).Respects _ _ _
    cases p with
    | assetSale => trivial
    | carryover => trivial
    | debtRepayment => trivial
    | retirementSavings => trivial
    | savingTotal => trivial
    | grossWithdrawals => trivial
    | grossIncome => exact respects_fSum (hp _) respects_fRet _
    | incomeTaxWithheld => exact respects_fSum (hp _) respects_fRet _
    | netIncome => exact respects_fSum (hp _) respects_fRet _
    | livingExpenses =>
      simp only [ownGet, livingGet]
      cases CashFlow.firstRetirement (w.people.map w.home.retirement) with
      | ok r => exact respects_asks (le_refl _) _
      | error e => trivial
    | netWithdrawals => exact respects_fNum (by simp [frank]) fun _ => respects_fRet _
    | taxWithheld =>
      refine respects_fSum (hp _) (fun x => ?_) _
      cases w.people with
      | nil => trivial
      | cons i l => exact respects_fSum (ha _ _) respects_fRet _
    | taxOwing => exact respects_asks (le_refl _) _
    | taxAdjustment =>
      exact respects_fNum (by simp [frank]) fun _ => respects_fNum (by simp [frank]) fun _ => respects_fRet _
    | income => exact respects_fNum (by simp [frank]) fun _ => respects_fRet _
    | expenses => exact respects_fNum (by simp [frank]) fun _ => respects_fRet _
    | savings =>
      exact respects_fNum (by simp [frank]) fun _ => respects_fNum (by simp [frank]) fun _ => respects_fRet _
    | principal => exact respects_fSum (ha _ _) respects_fRet _
    | withdrawals => exact respects_fNum (by simp [frank]) fun _ => respects_fRet _
    | tax => exact respects_fNum (by simp [frank]) fun _ => respects_fRet _

theorem planned_owned : Owned (planned : Sys (FObj N A) (FKey N A) (Val K) (FWorld N A K)) := by
  intro o k hk
  rcases o with o | f | _
  · obtain ⟨q, hq, rfl⟩ := List.mem_map.1 (show k ∈ List.map _ _ from hk)
    show FObj.base q.who = _
    rw [show q.who = o from household_owned (N := N) (A := A) (K := K) o q hq]
  · cases f with
    | income =>
      simp [planned, fprops] at hk
      rcases hk with rfl | rfl | rfl | rfl | rfl <;> rfl
    | living =>
      simp [planned, fprops] at hk
      subst hk; rfl
    | saving =>
      simp [planned, fprops] at hk
      rcases hk with rfl | rfl | rfl <;> rfl
    | withdrawal =>
      simp [planned, fprops] at hk
      rcases hk with rfl | rfl <;> rfl
    | tax =>
      simp [planned, fprops] at hk
      rcases hk with rfl | rfl | rfl <;> rfl
  · simp [planned, fprops] at hk
    rcases hk with rfl | rfl | rfl | rfl | rfl | rfl <;> rfl

theorem mem_fprops (k : FKey N A) :
    k ∈ (planned : Sys (FObj N A) (FKey N A) (Val K) (FWorld N A K)).props k.obj := by
  rcases k with k | p
  · exact List.mem_map_of_mem (mem_props (K := K) k)
  · cases p <;> simp [planned, fprops, FKey.obj, FProp.obj]

theorem planned_year (k : FKey N A) (years years' : FObj N A → ℤ) (w : FWorld N A K)
    (h : years k.obj = years' k.obj) : fgetter k years w = fgetter k years' w := by
  rcases k with k | p
  · have : getter k (fun o => years (.base o)) w.home = getter k (fun o => years' (.base o)) w.home := by
      rcases k with ⟨i, p⟩ | ⟨a, p⟩ <;> simp only [FKey.obj, Key.who] at h <;> simp only [getter, h]
    simp only [fgetter, this]
  · simp only [FKey.obj] at h
    simp only [fgetter, h]

theorem planned_after (o : FObj N A) (k : FKey N A) (years : FObj N A → ℤ) (w : FWorld N A K)
    (h : k.obj ≠ o) : fgetter k years (afterwards o w) = fgetter k years w := by
  rcases o with (i | a) | f | _
  · rfl
  · rcases k with (⟨i, p⟩ | ⟨b, p⟩) | p
    · cases p <;> rfl
    · have hb : b ≠ a := by
        rintro rfl
        exact h rfl
      have : (clearTx a w.home).txns b = w.home.txns b := by simp only [clearTx, if_neg hb]
      have e : accountGet b (years (.base (.account b))) (clearTx a w.home) p
          = accountGet b (years (.base (.account b))) w.home p := by
        cases p <;> first | rfl | simp only [accountGet, this]
      show Prog.rename _ (accountGet b _ (clearTx a w.home) p) = _
      rw [e]; rfl
    · cases p <;> rfl
  · rfl
  · rfl

/-- The forecast first, then sub-forecasts, people, accounts. -/
def flev : FObj N A → ℕ
  | .forecast => 0
  | .sub _ => 1
  | .base (.person _) => 2
  | .base (.account _) => 3

/-- Everything but people outside the forecast. -/
def Inside (people : List N) : FKey N A → Prop
  | .base (.person i _) => i ∈ people
  | _ => True

/-- Somebody of the forecast, or an account of it. -/
def Concerns (people : List N) (accounts : List A) : Key N A → Prop
  | .person i _ => i ∈ people
  | .account a _ => a ∈ accounts

/-- A strategy asks about people and accounts of the forecast only. -/
def Asks.Concerns (people : List N) (accounts : List A) : Asks N A K → Prop
  | .done _ => True
  | .ask k next => Recorded.Concerns people accounts k ∧ ∀ v, (next v).Concerns people accounts

theorem Concerns.inside {people : List N} {accounts : List A} {k : Key N A}
    (h : Concerns people accounts k) : Inside people (.base k) := by
  rcases k with ⟨i, p⟩ | ⟨a, p⟩
  · exact h
  · trivial

/-- What stays as it is when a year is closed. -/
structure Set0 (people : List N) (accounts : List A) (w : FWorld N A K) : Prop where
  who : w.people = people
  strategy : ∀ y r, (w.strategy y r).Concerns people accounts
  treatment : ∀ y, (w.treatment y).Concerns people accounts

theorem Set0.after {people : List N} {accounts : List A} {w : FWorld N A K} (h : Set0 people accounts w) (o : FObj N A) :
    Set0 people accounts (afterwards o w) := by
  rcases o with (i | a) | f | _ <;> exact ⟨h.who, h.strategy, h.treatment⟩

/-- What an object may read when the objects in `os` are to be closed. -/
def Reads (people : List N) (os : List (FObj N A)) (k q : FKey N A) : Prop :=
  Inside people q ∧ (q.obj = k.obj ∨ (k.obj ∈ os ∧ flev k.obj < flev q.obj))

theorem within_fNum {D : FKey N A → Prop} {k : FKey N A} {f : K → Prog (FKey N A) (Val K)} (h : D k)
    (hf : ∀ x, (f x).Within D) : (fNum k f).Within D := by
  refine ⟨h, fun v => ?_⟩
  cases v with
  | num x => exact hf x
  | txns d => trivial

theorem within_fSum {D : FKey N A → Prop} {ks : List (FKey N A)} {f : K → Prog (FKey N A) (Val K)}
    (h : ∀ k ∈ ks, D k) (hf : ∀ x, (f x).Within D) : ∀ start : K, (fSum ks start f).Within D := by
  induction ks with
  | nil => exact hf
  | cons k ks ih =>
    intro start
    exact within_fNum (h k List.mem_cons_self) fun x =>
      ih (fun q hq => h q (List.mem_cons_of_mem _ hq)) _

theorem within_asks {people : List N} {accounts : List A} {D : FKey N A → Prop} (q : Asks N A K)
    (hD : ∀ k : Key N A, Inside people (.base k) → D (.base k)) : q.Concerns people accounts →
    q.prog.Within D := by
  induction q with
  | done r => intro _; trivial
  | ask k next ih => exact fun h => ⟨hD k h.1.inside, fun v => ih v (h.2 v)⟩

/-- Everything that `Forecast.next_year` closes. -/
abbrev everything (people : List N) (accounts : List A) : List (FObj N A) :=
  .forecast :: parts people accounts

theorem mem_parts_sub (people : List N) (accounts : List A) (f : Sub) :
    FObj.sub f ∈ parts people accounts := by
  cases f <;> simp [parts]

theorem mem_parts_person {people : List N} (accounts : List A) {i : N} (h : i ∈ people) :
    FObj.base (.person i) ∈ parts people accounts := by
  simp [parts, h]

theorem mem_parts_account (people : List N) {accounts : List A} {a : A} (h : a ∈ accounts) :
    FObj.base (.account a) ∈ parts people accounts := by
  simp [parts, h]

theorem own_mem (people : List N) (accounts : List A) (p : FProp) :
    (p.obj : FObj N A) ∈ everything people accounts := by
  cases p <;> simp [FProp.obj, everything, parts]

theorem planned_within {people : List N} (accounts : List A) (k : FKey N A) (years : FObj N A → ℤ)
    {w : FWorld N A K} (hw : Set0 people accounts w) (hk : Inside people k) :
    (fgetter k years w).Within (Reads people (everything people accounts) k) := by
  rcases k with (⟨i, p⟩ | ⟨a, p⟩) | p
  · refine within_rename (D := fun q => q.who = .person i ∨ ∃ b, q.who = .account b) ?_ _ ?_
    · rintro (⟨j, q⟩ | ⟨b, q⟩) h
      · rcases h with h | ⟨b, h⟩
        · cases h; exact ⟨hk, .inl rfl⟩
        · cases h
      · exact ⟨trivial, .inr ⟨List.mem_cons_of_mem _ (mem_parts_person accounts hk), by
          simp [FKey.obj, Key.who, flev]⟩⟩
    · exact person_within (fun _ => .inl rfl) _ _ (fun a _ _ => .inr ⟨a, rfl⟩) p
  · refine within_rename (D := fun q => q.who = .account a) ?_ _ ?_
    · rintro (⟨j, q⟩ | ⟨b, q⟩) h
      · cases h
      · cases h; exact ⟨trivial, .inl rfl⟩
    · exact account_within (fun _ => rfl) _ _ p
  · have lev1 : ∀ p : FProp, flev (p.obj : FObj N A) ≤ 1 := by intro p; cases p <;> simp [FProp.obj, flev]
    have hbase : ∀ q : Key N A, Inside people (.base q) →
        Reads people (everything people accounts) (.own p) (.base q) := by
      intro q hq
      refine ⟨hq, .inr ⟨own_mem people accounts p, ?_⟩⟩
      have := lev1 p
      have h2 : 2 ≤ flev (FObj.base q.who : FObj N A) := by
        rcases q with ⟨j, q⟩ | ⟨b, q⟩ <;> simp [Key.who, flev]
      simp only [FKey.obj]
      omega
    have hown : ∀ q : FProp, ((q.obj : FObj N A) = p.obj ∨
        (flev (p.obj : FObj N A) < flev (q.obj : FObj N A))) →
        Reads people (everything people accounts) (.own p) (.own q) := by
      rintro q (h | h)
      · exact ⟨trivial, .inl h⟩
      · exact ⟨trivial, .inr ⟨own_mem people accounts p, h⟩⟩
    have hp : ∀ q : PProp, ∀ k ∈ ofPeople w q, Reads people (everything people accounts) (.own p) k := by
      intro q k hm
      obtain ⟨i, hi, rfl⟩ := List.mem_map.1 hm
      exact hbase _ (by rw [hw.who] at hi; exact hi)
    have ha : ∀ (q : AProp) (l : List A), ∀ k ∈ l.map (fun a => FKey.base (Key.account (N := N) a q)),
        Reads people (everything people accounts) (.own p) k := by
      intro q l k hm
      obtain ⟨i, hi, rfl⟩ := List.mem_map.1 hm
      exact hbase _ trivial
    show (ownGet _ w p).Within _
    cases p with
    | assetSale => trivial
    | carryover => trivial
    | debtRepayment => trivial
    | retirementSavings => trivial
    | savingTotal => trivial
    | grossWithdrawals => trivial
    | grossIncome => exact within_fSum (hp _) within_fRet _
    | incomeTaxWithheld => exact within_fSum (hp _) within_fRet _
    | netIncome => exact within_fSum (hp _) within_fRet _
    | livingExpenses =>
      simp only [ownGet, livingGet]
      cases CashFlow.firstRetirement (w.people.map w.home.retirement) with
      | ok r => exact within_asks _ hbase (hw.strategy _ _)
      | error e => trivial
    | netWithdrawals => exact within_fNum (hown _ (.inl rfl)) fun _ => within_fRet _
    | taxWithheld =>
      refine within_fSum (hp _) (fun x => ?_) _
      cases w.people with
      | nil => trivial
      | cons i l => exact within_fSum (ha _ _) within_fRet _
    | taxOwing => exact within_asks _ hbase (hw.treatment _)
    | taxAdjustment =>
      exact within_fNum (hown _ (.inl rfl)) fun _ => within_fNum (hown _ (.inl rfl)) fun _ => within_fRet _
    | income => exact within_fNum (hown _ (.inr (by simp [FProp.obj, flev]))) fun _ => within_fRet _
    | expenses => exact within_fNum (hown _ (.inr (by simp [FProp.obj, flev]))) fun _ => within_fRet _
    | savings =>
      exact within_fNum (hown _ (.inl rfl)) fun _ => within_fNum (hown _ (.inl rfl)) fun _ => within_fRet _
    | principal => exact within_fSum (ha _ _) within_fRet _
    | withdrawals => exact within_fNum (hown _ (.inr (by simp [FProp.obj, flev]))) fun _ => within_fRet _
    | tax => exact within_fNum (hown _ (.inr (by simp [FProp.obj, flev]))) fun _ => within_fRet _

theorem everything_nodup {people : List N} {accounts : List A} (hp : people.Nodup)
    (ha : accounts.Nodup) : (everything people accounts).Nodup := by
  have i1 : Function.Injective (fun i : N => FObj.base (A := A) (.person i)) := by
    intro i j h; cases h; rfl
  have i2 : Function.Injective (fun a : A => FObj.base (N := N) (.account a)) := by
    intro i j h; cases h; rfl
  simp only [everything, parts, List.nodup_cons, List.mem_append, List.mem_map, List.nodup_append,
    List.map_cons, List.map_nil]
  refine ⟨?_, ⟨?_, hp.map i1, ?_⟩, ha.map i2, ?_⟩
  · simp
  · simp
  · simp
  · simp only [List.mem_cons, List.not_mem_nil, or_false]
    rintro _ ((rfl | rfl | rfl | rfl | rfl) | ⟨i, _, rfl⟩) b ⟨a, _, rfl⟩ h <;> cases h

theorem everything_sorted (people : List N) (accounts : List A) :
    (everything people accounts).Pairwise (fun o o' => flev o ≤ flev o') := by
  have l1 : ∀ (l : List N), (l.map fun i => FObj.base (A := A) (.person i)).Pairwise
      (fun o o' => flev o ≤ flev o') := by
    intro l
    rw [List.pairwise_map]
    exact List.pairwise_of_forall fun _ _ => le_refl _
  have l2 : ∀ (l : List A), (l.map fun i => FObj.base (N := N) (.account i)).Pairwise
      (fun o o' => flev o ≤ flev o') := by
    intro l
    rw [List.pairwise_map]
    exact List.pairwise_of_forall fun _ _ => le_refl _
  rw [everything, List.pairwise_cons]
  refine ⟨fun _ _ => Nat.zero_le _, ?_⟩
  rw [parts, List.pairwise_append, List.pairwise_append]
  refine ⟨⟨by simp [flev], l1 people, ?_⟩, l2 accounts, ?_⟩
  · intro x hx y hy
    obtain ⟨f, _, rfl⟩ := List.mem_map.1 hx
    obtain ⟨i, _, rfl⟩ := List.mem_map.1 hy
    simp [flev]
  · intro x hx y hy
    obtain ⟨a, _, rfl⟩ := List.mem_map.1 hy
    rcases List.mem_append.1 hx with hx | hx
    · obtain ⟨f, _, rfl⟩ := List.mem_map.1 hx
      simp [flev]
    · obtain ⟨f, _, rfl⟩ := List.mem_map.1 hx
      simp [flev]

/-! ### The loops of `Forecast.next_year` -/

theorem nextYear_years {n : ℕ} (hn : 8 ≤ n) {o : FObj N A} {s u : FSt N A K}
    (h : nextYear planned n o s = (none, u)) :
    (∀ o', u.year o' = if o' = o then s.year o + 1 else s.year o') ∧ u.world = s.world := by
  have h0 : (nextYear planned n o s).1 = none := by rw [h]
  have ht : (nextYear planned n o s).2 = u := by rw [h]
  obtain ⟨-, -, -, -, r5, r6, -⟩ := C81_records_the_values planned frank planned_acyclic n
    (fun k => lt_of_lt_of_le (frank_lt k) hn) s o h0
  rw [ht] at r5 r6
  exact ⟨r5, r6⟩

theorem bringAll_closeAll {n : ℕ} (hn : 8 ≤ n) (Y : ℤ) (os : List (FObj N A)) :
    ∀ {s t : FSt N A K}, os.Nodup → (∀ o ∈ os, s.year o = Y - 1) →
    (∀ a, .base (.account a) ∈ os → ∀ i, s.world.home.owner a = some i →
      Y - 1 ≤ s.year (.base (.person i))) →
    bringAll n Y os s = (none, t) → closeAll planned n afterwards os s = (none, t) := by
  induction os with
  | nil => intro s t _ _ _ h; exact h
  | cons o os ih =>
    intro s t hnd hy ho h
    rw [List.nodup_cons] at hnd
    simp only [bringAll] at h
    have e1 : (Y - s.year o).toNat = 1 := by rw [hy o List.mem_cons_self]; omega
    rw [e1] at h
    have e2 : objNextYear n o s = closeOne n o s := by
      rcases o with (i | a) | f | _
      · rfl
      · simp only [objNextYear]
        cases hw : s.world.home.owner a with
        | none => rfl
        | some i =>
          have h1 := ho a List.mem_cons_self i hw
          have h2 := hy _ List.mem_cons_self
          have : (s.year (.base (.account a)) - s.year (.base (.person i))).toNat = 0 := by omega
          simp only [this, turns]
      · rfl
      · rfl
    simp only [turns, e2, closeOne] at h
    simp only [closeAll]
    cases hr : nextYear planned n o s with
    | mk x u =>
      rw [hr] at h
      cases x with
      | some e => simp at h
      | none =>
        simp only at h ⊢
        obtain ⟨hu1, hu2⟩ := nextYear_years hn hr
        refine ih hnd.2 ?_ ?_ h
        · intro o' hm
          show u.year o' = _
          rw [hu1, if_neg (by rintro rfl; exact hnd.1 hm)]
          exact hy o' (List.mem_cons_of_mem _ hm)
        · intro a hm i hi
          have hown : s.world.home.owner a = some i := by
            have : (afterwards o u.world).home.owner = u.world.home.owner := by
              rcases o with (i | a) | f | _ <;> rfl
            rw [show ({ u with world := afterwards o u.world } : FSt N A K).world.home.owner
              = u.world.home.owner from this, hu2] at hi
            exact hi
          show Y - 1 ≤ u.year _
          have h1 := ho a (List.mem_cons_of_mem _ hm) i hown
          rw [hu1]
          split
          · rename_i e; rw [e] at h1; omega
          · exact h1

/-! ### What the values are -/

/-- The value of a property. -/
abbrev fval (s : FSt N A K) (k : FKey N A) : Except PyErr (Val K) := val planned frank s k

/-- The amount of a result. -/
def numOf : Except PyErr (Val K) → K
  | .ok (.num x) => x
  | _ => 0

theorem evProg_fNum {f : FKey N A → Except PyErr (Val K)} {s : FSt N A K} {k : FKey N A}
    {g : K → Prog (FKey N A) (Val K)} {v : Val K} (h : evProg f s (fNum k g) = .ok v) :
    ∃ x, f k = .ok (.num x) ∧ evProg f s (g x) = .ok v := by
  simp only [fNum, evProg] at h
  cases hf : f k with
  | error e => rw [hf] at h; cases h
  | ok w =>
    rw [hf] at h
    cases w with
    | num x => exact ⟨x, rfl, h⟩
    | txns d => cases h

theorem evProg_fSum {f : FKey N A → Except PyErr (Val K)} {s : FSt N A K}
    {g : K → Prog (FKey N A) (Val K)} {v : Val K} (ks : List (FKey N A)) : ∀ start : K,
    evProg f s (fSum ks start g) = .ok v →
    (∀ k ∈ ks, f k = .ok (.num (numOf (f k)))) ∧
      evProg f s (g (start + (ks.map fun k => numOf (f k)).sum)) = .ok v := by
  induction ks with
  | nil => intro start h; exact ⟨fun k h => (by cases h), by simpa [fSum] using h⟩
  | cons k ks ih =>
    intro start h
    obtain ⟨x, h1, h2⟩ := evProg_fNum h
    obtain ⟨h3, h4⟩ := ih _ h2
    refine ⟨?_, ?_⟩
    · intro q hq
      rcases List.mem_cons.1 hq with rfl | hq
      · rw [h1]; rfl
      · exact h3 q hq
    · simp only [List.map_cons, List.sum_cons, h1, numOf]
      rw [← add_assoc]
      exact h4

theorem fval_none {s : FSt N A K} {p : FProp} {v : Val K}
    (h : s.now planned (.own p) = none) (hv : fval s (.own p) = .ok v) :
    evProg (fval s) s (ownGet (s.year p.obj) s.world p) = .ok v := by
  rw [← hv]
  exact ((val_none planned_acyclic h).1).symm

end Forecaster.Recorded
