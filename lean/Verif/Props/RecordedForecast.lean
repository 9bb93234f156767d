import Verif.Lemmas.RecordedForecast
import Verif.Lemmas.CashFlow
import Verif.Props.CashFlow

/-!
# C87: a forecast's records of a year
-/

namespace Forecaster.Recorded

open Forecaster

variable {N A K : Type} [DecidableEq N] [DecidableEq A] [Field K] [LinearOrder K]
  [IsStrictOrderedRing K]

/-! ### Specification -/

/-- What a strategy or tax treatment answers if the figures it asks for are those on record. -/
def Asks.answer (rec' : Key N A → Option (Val K)) : Asks N A K → Except PyErr K
  | .done r => r
  | .ask k next =>
    match rec' k with
    | some v => (next v).answer rec'
    | none => .error .keyError

/-- A forecast in year `Y`, with its sub-forecasts, people and accounts. -/
structure InYear (Y : ℤ) (people : List N) (accounts : List A) (s : FSt N A K) : Prop where
  people_once : people.Nodup
  accounts_once : accounts.Nodup
  who : s.world.people = people
  forecast : s.year .forecast = Y
  subs : ∀ f, s.year (.sub f) = Y
  persons : ∀ i ∈ people, s.year (.base (.person i)) = Y
  accts : ∀ a ∈ accounts, s.year (.base (.account a)) = Y
  /-- no owner of an account is behind -/
  owners : ∀ a ∈ accounts, ∀ i, s.world.home.owner a = some i → Y ≤ s.year (.base (.person i))
  /-- the living-expenses strategy and the tax treatment ask about nobody else -/
  strategy : ∀ y r, (s.world.strategy y r).Concerns people accounts
  treatment : ∀ y, (s.world.treatment y).Concerns people accounts

/-- The property belongs to the forecast, a sub-forecast, one of its people or one of its accounts. -/
def Ours (people : List N) (accounts : List A) : FKey N A → Prop
  | .base k => Concerns people accounts k
  | .own _ => True

/-! ### Proofs -/

theorem fread {n : ℕ} (hn : 8 ≤ n) (s : FSt N A K) (k : FKey N A) :
    (read planned n k s).1 = fval s k := by
  rw [read_eq planned_acyclic (lt_of_lt_of_le (frank_lt k) hn)]

theorem ours_mem {people : List N} {accounts : List A} {k : FKey N A} (h : Ours people accounts k) :
    k.obj ∈ everything people accounts := by
  rcases k with (⟨i, p⟩ | ⟨a, p⟩) | p
  · exact List.mem_cons_of_mem _ (mem_parts_person _ h)
  · exact List.mem_cons_of_mem _ (mem_parts_account _ h)
  · exact own_mem _ _ p

theorem ours_inside {people : List N} {accounts : List A} {k : FKey N A} (h : Ours people accounts k) :
    Inside people k := by
  rcases k with (⟨i, p⟩ | ⟨a, p⟩) | p
  · exact h
  · trivial
  · trivial

theorem everything_year {Y : ℤ} {people : List N} {accounts : List A} {s : FSt N A K}
    (h : InYear Y people accounts s) {o : FObj N A} (ho : o ∈ everything people accounts) :
    s.year o = Y := by
  rcases o with (i | a) | f | _
  · refine h.persons i ?_
    simpa [everything, parts] using ho
  · refine h.accts a ?_
    simpa [everything, parts] using ho
  · exact h.subs f
  · exact h.forecast

theorem fnextYear_closed {n : ℕ} (hn : 8 ≤ n) {Y : ℤ} {people : List N} {accounts : List A}
    {s t : FSt N A K} (hs : InYear Y people accounts s) {adj : Option (Val K)}
    (h : fnextYear n accounts s = (.ok adj, t)) :
    (∀ k, Ours people accounts k → ∃ v, fval s k = .ok v ∧ Dict.get? (t.hist k) Y = some v) ∧
    (∀ k y v, Dict.get? (s.hist k) y = some v → Dict.get? (t.hist k) y = some v) ∧
    (∀ k y, y < s.year k.obj → Dict.get? (t.hist k) y = Dict.get? (s.hist k) y) ∧
    (∀ o, t.year o = if o ∈ everything people accounts then Y + 1 else s.year o) ∧
    t.inputs = s.inputs ∧
    t.world = (everything people accounts).foldl (fun w o => afterwards o w) s.world ∧
    (∃ v, fval s (.own .taxAdjustment) = .ok v ∧ adj = some v) := by
  have hnk : ∀ k : FKey N A, frank k < n := fun k => lt_of_lt_of_le (frank_lt k) hn
  simp only [fnextYear] at h
  rw [read_eq planned_acyclic (hnk _)] at h
  simp only at h
  set s1 := grow planned frank s (fills planned frank s (.own .taxAdjustment)) with hs1
  have hcl : Closed planned frank s (fills planned frank s (.own .taxAdjustment)) := by
    have := closed_union planned_acyclic (closed_empty planned frank s) (FKey.own .taxAdjustment)
    rwa [Set.empty_union] at this
  have hv1 : ∀ k, fval s1 k = fval s k := fun k => val_grow planned_acyclic s hcl k
  have hkeep1 : ∀ k y v, Dict.get? (s.hist k) y = some v → Dict.get? (s1.hist k) y = some v := by
    have := (read_grows planned n (.own .taxAdjustment) s).1
    rw [read_eq planned_acyclic (hnk _)] at this
    intro k y v hv
    by_cases hy : y = s.year k.obj
    · subst hy; exact this.stays k v hv
    · exact (this.past k y hy).trans hv
  have hpast1 : ∀ k y, y < s.year k.obj → Dict.get? (s1.hist k) y = Dict.get? (s.hist k) y :=
    fun k y hy => past_grow planned frank s _ k (ne_of_lt hy)
  cases hae : ifPresent (fval s (.own .taxAdjustment)) with
  | error e => rw [hae] at h; cases h
  | ok adj' =>
    rw [hae] at h
    simp only [closeOne] at h
    cases hr : nextYear planned n .forecast s1 with
    | mk x u =>
      rw [hr] at h
      cases x with
      | some e => cases h
      | none =>
        simp only [afterwards] at h
        obtain ⟨hu1, hu2⟩ := nextYear_years hn hr
        have hyf : u.year .forecast = Y + 1 := by
          rw [hu1, if_pos rfl]
          show s.year .forecast + 1 = _
          rw [hs.forecast]
        have hwp : u.world.people = people := by rw [hu2]; exact hs.who
        rw [hyf, hwp] at h
        cases hb : bringAll n (Y + 1) (parts people accounts) u with
        | mk x w =>
          have h2 : (match (x, w) with
            | (some e, s3) => (.error e, s3)
            | (none, s3) => (.ok adj', s3) : Except PyErr (Option (Val K)) × FSt N A K)
              = (.ok adj, t) := by rw [← hb]; exact h
          cases x with
          | some e => cases h2
          | none =>
            simp only at h2
            obtain ⟨e1, e2⟩ := Prod.mk.inj h2
            cases e1
            subst e2
            have hnd := everything_nodup hs.people_once hs.accounts_once
            have hnd' : (parts people accounts).Nodup := (List.nodup_cons.1 hnd).2
            have hnf : (FObj.forecast : FObj N A) ∉ parts people accounts := (List.nodup_cons.1 hnd).1
            have hcA : closeAll planned n afterwards (everything people accounts) s1 = (none, w) := by
              simp only [everything, closeAll, hr, afterwards]
              refine bringAll_closeAll hn (Y + 1) _ hnd' ?_ ?_ hb
              · intro o ho
                rw [hu1, if_neg (by rintro rfl; exact hnf ho)]
                show s.year o = _
                rw [everything_year hs (List.mem_cons_of_mem _ ho)]; omega
              · intro b hb i hi
                rw [hu2] at hi
                rw [hu1, if_neg (by simp)]
                show _ ≤ s.year _
                have := hs.owners b (by simpa [parts] using hb) i hi
                omega
            have hset : Set0 people accounts s1.world := ⟨hs.who, hs.strategy, hs.treatment⟩
            obtain ⟨c1, c2, c3, c4, c5, c6, -⟩ := closeAll_closed planned_acyclic hnk planned_owned
              afterwards (fun k years years' w h => planned_year k years years' w h)
              (fun o k years w h => planned_after o k years w h) flev (Set0 people accounts)
              (fun o w h => h.after o) (everything people accounts) (Inside people) hnd
              (everything_sorted people accounts) hset
              (fun k years w hw hk => planned_within accounts k years hw hk) hcA
            have hrec : ∀ k, Ours people accounts k →
                ∃ v, fval s k = .ok v ∧ Dict.get? (w.hist k) Y = some v := by
              intro k hk
              obtain ⟨v, h1, h2⟩ := c1 k.obj (ours_mem hk) k (mem_fprops k) (ours_inside hk)
              refine ⟨v, (hv1 k).symm.trans h1, ?_⟩
              rw [← everything_year hs (ours_mem hk)]
              exact h2
            refine ⟨hrec, fun k y v hv => c2 k y v (hkeep1 k y v hv), ?_, ?_, c5, c6, ?_⟩
            · intro k y hy
              rw [c3 k y hy, hpast1 k y hy]
            · intro o
              rw [c4 o]
              by_cases ho : o ∈ everything people accounts
              · rw [if_pos ho, if_pos ho]
                show s.year o + 1 = _
                rw [everything_year hs ho]
              · rw [if_neg ho, if_neg ho]; rfl
            · obtain ⟨v, h1, -⟩ := hrec (.own .taxAdjustment) trivial
              refine ⟨v, h1, ?_⟩
              rw [h1] at hae
              cases hae; rfl

theorem after_txns (os : List (FObj N A)) : ∀ (w : FWorld N A K) (a : A),
    (os.foldl (fun w o => afterwards o w) w).home.txns a
      = if FObj.base (.account a) ∈ os then [] else w.home.txns a := by
  induction os with
  | nil => intro w a; simp
  | cons o os ih =>
    intro w a
    rw [List.foldl_cons, ih]
    by_cases h : FObj.base (.account a) ∈ os
    · rw [if_pos h, if_pos (List.mem_cons_of_mem _ h)]
    · rw [if_neg h]
      by_cases e : o = .base (.account a)
      · subst e
        rw [if_pos List.mem_cons_self]
        simp [afterwards, clearTx]
      · rw [if_neg (by
          intro hm
          rcases List.mem_cons.1 hm with hm | hm
          · exact e hm.symm
          · exact h hm)]
        rcases o with (i | b) | f | _
        · rfl
        · have : a ≠ b := by rintro rfl; exact e rfl
          simp only [afterwards, clearTx, if_neg this]
        · rfl
        · rfl

/-- **C87** (everything of the year is on record). When `Forecast.next_year` has run in year `Y`: the
forecast, its sub-forecasts, its people and its accounts, and nothing else, are in year `Y + 1`; every
recorded property of each of them has on record for `Y` the value it had just before the call, although
the objects are closed one after the other and each is computed from others; nothing that was on record
has changed; the accounts' transactions are cleared; and the tax adjustment carried into the next year is
the one on record. -/
theorem C87_year_on_record (n : ℕ) (hn : 8 ≤ n) (Y : ℤ) (people : List N) (accounts : List A)
    (s t : FSt N A K) (hs : InYear Y people accounts s) (adj : Option (Val K))
    (h : fnextYear n accounts s = (.ok adj, t)) :
    (∀ k, Ours people accounts k → ∃ v, (read planned n k s).1 = .ok v ∧
      Dict.get? (t.hist k) Y = some v) ∧
    (∀ k y v, Dict.get? (s.hist k) y = some v → Dict.get? (t.hist k) y = some v) ∧
    (∀ k y, y < s.year k.obj → Dict.get? (t.hist k) y = Dict.get? (s.hist k) y) ∧
    (t.year .forecast = Y + 1 ∧ (∀ f, t.year (.sub f) = Y + 1) ∧
      (∀ i, t.year (.base (.person i)) = if i ∈ people then Y + 1 else s.year (.base (.person i))) ∧
      ∀ a, t.year (.base (.account a)) = if a ∈ accounts then Y + 1 else s.year (.base (.account a))) ∧
    (∀ a, t.world.home.txns a = if a ∈ accounts then [] else s.world.home.txns a) ∧
    (∃ v, adj = some v ∧ Dict.get? (t.hist (.own .taxAdjustment)) Y = some v) := by
  obtain ⟨h1, h2, h3, h4, -, h6, v, h7, h8⟩ := fnextYear_closed hn hs h
  have memp : ∀ i, (FObj.base (.person i) : FObj N A) ∈ everything people accounts ↔ i ∈ people := by
    intro i; simp [everything, parts]
  have mema : ∀ a, (FObj.base (.account a) : FObj N A) ∈ everything people accounts ↔ a ∈ accounts := by
    intro i; simp [everything, parts]
  refine ⟨?_, h2, h3, ⟨?_, ?_, ?_, ?_⟩, ?_, v, h8, ?_⟩
  · intro k hk
    rw [fread hn]
    exact h1 k hk
  · rw [h4, if_pos List.mem_cons_self]
  · intro f
    rw [h4, if_pos (List.mem_cons_of_mem _ (mem_parts_sub _ _ f))]
  · intro i; rw [h4]; simp only [memp]
  · intro a; rw [h4]; simp only [mema]
  · intro a; rw [h6, after_txns]; simp only [mema]
  · obtain ⟨v', g1, g2⟩ := h1 (.own .taxAdjustment) trivial
    rw [h7] at g1; cases g1; exact g2

theorem evProg_asks {people : List N} {accounts : List A} {f : FKey N A → Except PyErr (Val K)}
    {s : FSt N A K} {rec' : Key N A → Option (Val K)}
    (hf : ∀ k, Concerns people accounts k → ∀ v, f (.base k) = .ok v → rec' k = some v) {v : Val K}
    (q : Asks N A K) : q.Concerns people accounts → evProg f s q.prog = .ok v →
    ∃ x, q.answer rec' = .ok x ∧ v = .num x := by
  induction q with
  | done r =>
    intro _ h
    simp only [Asks.prog, evProg] at h
    cases r with
    | error e => cases h
    | ok x => cases h; exact ⟨x, rfl, rfl⟩
  | ask k next ih =>
    intro hq h
    simp only [Asks.prog, evProg] at h
    cases hk : f (.base k) with
    | error e => rw [hk] at h; cases h
    | ok u =>
      rw [hk] at h
      simp only [Asks.answer, hf k hq.1 u hk]
      exact ih u (hq.2 u) h

/-- The total of what is planned for some accounts. -/
def toAccounts (txs : Dict A (Dict K K)) (accounts : List A) : K :=
  (accounts.map fun a => match Dict.get? txs a with
    | some d => (d.map Prod.snd).sum
    | none => 0).sum

/-- **C87** (the year's records agree). After `Forecast.next_year`, what is on record for the year
agrees, between the forecast, its sub-forecasts, its people and its accounts — each figure unless it was
on record beforehand (given as an input, assigned, or read earlier in the year and cached):

* the income forecast's gross, withheld and net income are the totals of the people's, its carryover the
  money at hand before it ran;
* living expenses are what the strategy answers, for this year and the earliest retirement year, given
  people's and accounts' figures on record; tax owing is what the tax treatment answers;
* tax withheld is the people's plus that of their accounts, each account once; the tax adjustment is tax
  withheld less tax owing;
* gross withdrawals are the shortfall, net withdrawals are these plus the tax withheld on them;
* retirement savings (and debt repayments) are what was paid into retirement accounts, the total is what
  was paid in all;
* the forecast's income, living expenses, withdrawals and tax are its sub-forecasts', its savings income
  less living expenses but not less than nothing, its principal the balances of its assets. -/
theorem C87_records_agree (n : ℕ) (hn : 8 ≤ n) (Y : ℤ) (people : List N) (accounts : List A)
    (s t : FSt N A K) (hs : InYear Y people accounts s) (adj : Option (Val K))
    (h : fnextYear n accounts s = (.ok adj, t)) :
    let own := fun p => Dict.get? (t.hist (.own p)) Y
    let base := fun k => Dict.get? (t.hist (.base k)) Y
    let fresh := fun p => s.now planned (.own p) = none
    let total := fun {B : Type} (key : B → Key N A) (l : List B) (x : K) => ∃ f : B → K,
      (∀ b ∈ l, base (key b) = some (.num (f b))) ∧ x = (l.map f).sum
    let everybody := fun p x => total (fun i => .person i p) people x
    (fresh .grossIncome → ∃ x, everybody .grossIncome x ∧ own .grossIncome = some (.num x)) ∧
    (fresh .incomeTaxWithheld → ∃ x, everybody .taxWithheld x ∧
      own .incomeTaxWithheld = some (.num x)) ∧
    (fresh .netIncome → ∃ x, everybody .netIncome x ∧ own .netIncome = some (.num x)) ∧
    (fresh .carryover → own .carryover = some (.num s.world.incomeAvailable)) ∧
    (fresh .assetSale → own .assetSale = some (.num 0)) ∧
    (fresh .livingExpenses → ∃ r x, (∃ i ∈ people, s.world.home.retirement i = some r) ∧
      (∀ i ∈ people, ∃ r', s.world.home.retirement i = some r' ∧ r ≤ r') ∧
      (s.world.strategy Y r).answer base = .ok x ∧ own .livingExpenses = some (.num x)) ∧
    (fresh .taxOwing → ∃ x, (s.world.treatment Y).answer base = .ok x ∧
      own .taxOwing = some (.num x)) ∧
    (fresh .taxWithheld → (∀ i ∈ people, ∀ a ∈ s.world.home.accounts i, a ∈ accounts) →
      people ≠ [] ∧ ∃ x y, everybody .taxWithheld x ∧
        (∃ l : List A, l.Nodup ∧ (∀ a, a ∈ l ↔ ∃ i ∈ people, a ∈ s.world.home.accounts i) ∧
          total (fun a => .account a .taxWithheld) l y) ∧
        own .taxWithheld = some (.num (x + y))) ∧
    (fresh .taxAdjustment → ∃ x y, own .taxWithheld = some (.num x) ∧ own .taxOwing = some (.num y) ∧
      own .taxAdjustment = some (.num (x - y))) ∧
    (fresh .grossWithdrawals → own .grossWithdrawals = some (.num (-s.world.withdrawalAvailable))) ∧
    (fresh .netWithdrawals → ∃ x, own .grossWithdrawals = some (.num x) ∧
      own .netWithdrawals = some (.num (x + s.world.withheld))) ∧
    (fresh .retirementSavings → own .retirementSavings
      = some (.num (toAccounts s.world.savingTxns s.world.retirementAccounts))) ∧
    (fresh .debtRepayment → own .debtRepayment
      = some (.num (toAccounts s.world.savingTxns s.world.retirementAccounts))) ∧
    (fresh .savingTotal → own .savingTotal
      = some (.num (toAccounts s.world.savingTxns (Dict.keys s.world.savingTxns)))) ∧
    (fresh .income → ∃ x, own .netIncome = some (.num x) ∧ own .income = some (.num x)) ∧
    (fresh .expenses → ∃ x, own .livingExpenses = some (.num x) ∧ own .expenses = some (.num x)) ∧
    (fresh .savings → ∃ x y, own .income = some (.num x) ∧ own .expenses = some (.num y) ∧
      own .savings = some (.num (if y ≤ x then x - y else 0))) ∧
    (fresh .principal → (∀ a ∈ s.world.assets, a ∈ accounts) →
      ∃ x, total (fun a => .account a .balance) s.world.assets x ∧ own .principal = some (.num x)) ∧
    (fresh .withdrawals → ∃ x, own .grossWithdrawals = some (.num x) ∧
      own .withdrawals = some (.num x)) ∧
    (fresh .tax → ∃ x, own .taxOwing = some (.num x) ∧ own .tax = some (.num x)) := by
  intro own base fresh total everybody
  obtain ⟨h1, -⟩ := fnextYear_closed hn hs h
  have onRec : ∀ k, Ours people accounts k → ∀ v, fval s k = .ok v → Dict.get? (t.hist k) Y = some v := by
    intro k hk v hv
    obtain ⟨v', g1, g2⟩ := h1 k hk
    rw [hv] at g1; cases g1; exact g2
  have toOwn : ∀ p v, fval s (.own p) = .ok v → own p = some v := fun p v hv => onRec (.own p) trivial v hv
  have comp : ∀ p, fresh p → ∃ v, evProg (fval s) s (ownGet Y s.world p) = .ok v ∧ own p = some v := by
    intro p hp
    obtain ⟨v, g1, g2⟩ := h1 (.own p) trivial
    refine ⟨v, ?_, g2⟩
    have := fval_none hp g1
    rwa [everything_year hs (own_mem people accounts p)] at this
  have sums : ∀ {B : Type} (key : B → Key N A) (l : List B) (start : K)
      (g : K → Prog (FKey N A) (Val K)) (v : Val K),
      (∀ b ∈ l, Concerns people accounts (key b)) →
      evProg (fval s) s (fSum (l.map fun b => .base (key b)) start g) = .ok v →
      ∃ x, total key l x ∧ evProg (fval s) s (g (start + x)) = .ok v := by
    intro B key l start g v hl hv
    obtain ⟨g1, g2⟩ := evProg_fSum _ start hv
    refine ⟨_, ⟨fun b => numOf (fval s (.base (key b))), ?_, rfl⟩, ?_⟩
    · intro b hb
      exact onRec (.base (key b)) (hl b hb) _ (g1 _ (List.mem_map_of_mem hb))
    · rw [List.map_map] at g2
      exact g2
  have people' : ∀ (p : PProp) (start : K) (g : K → Prog (FKey N A) (Val K)) (v : Val K),
      evProg (fval s) s (fSum (ofPeople s.world p) start g) = .ok v →
      ∃ x, everybody p x ∧ evProg (fval s) s (g (start + x)) = .ok v := by
    intro p start g v hv
    rw [ofPeople, hs.who] at hv
    exact sums (fun i => .person i p) people start g v (fun i hi => hi) hv
  have asks : ∀ (q : Asks N A K) (v : Val K), q.Concerns people accounts →
      evProg (fval s) s q.prog = .ok v → ∃ x, q.answer base = .ok x ∧ v = .num x := by
    intro q v hq hv
    exact evProg_asks (fun k hk v hv => onRec (.base k) hk v hv) q hq hv
  have sumOver' : ∀ (l : List A), CashFlow.sumOver s.world.savingTxns l
      = toAccounts s.world.savingTxns l := by
    intro l
    rw [CashFlow.sumOver_eq, toAccounts]
    congr 1
    apply List.map_congr_left
    intro a _
    unfold CashFlow.due
    cases Dict.get? s.world.savingTxns a <;> rfl
  have one : ∀ (p q : FProp) (g : K → K), fresh p →
      ownGet Y s.world p = fNum (.own q) (fun x => fRet (g x)) →
      ∃ x, own q = some (.num x) ∧ own p = some (.num (g x)) := by
    intro p q g hf e
    obtain ⟨v, g1, g2⟩ := comp p hf
    rw [e] at g1
    obtain ⟨x, g3, g4⟩ := evProg_fNum g1
    simp only [fRet, evProg] at g4
    cases g4
    exact ⟨x, toOwn _ _ g3, g2⟩
  have two : ∀ (p q r : FProp) (g : K → K → K), fresh p →
      ownGet Y s.world p = fNum (.own q) (fun x => fNum (.own r) fun y => fRet (g x y)) →
      ∃ x y, own q = some (.num x) ∧ own r = some (.num y) ∧ own p = some (.num (g x y)) := by
    intro p q r g hf e
    obtain ⟨v, g1, g2⟩ := comp p hf
    rw [e] at g1
    obtain ⟨x, g3, g4⟩ := evProg_fNum g1
    obtain ⟨y, g5, g6⟩ := evProg_fNum g4
    simp only [fRet, evProg] at g6
    cases g6
    exact ⟨x, y, toOwn _ _ g3, toOwn _ _ g5, g2⟩
  have const : ∀ (p : FProp) (x : K), fresh p → ownGet Y s.world p = fRet x →
      own p = some (.num x) := by
    intro p x hf e
    obtain ⟨v, g1, g2⟩ := comp p hf
    rw [e] at g1
    simp only [fRet, evProg] at g1
    cases g1
    exact g2
  have all : ∀ (p : FProp) (q : PProp), fresh p → ownGet Y s.world p = fSum (ofPeople s.world q) 0 fRet →
      ∃ x, everybody q x ∧ own p = some (.num x) := by
    intro p q hf e
    obtain ⟨v, g1, g2⟩ := comp p hf
    rw [e] at g1
    obtain ⟨x, g3, g4⟩ := people' q _ _ _ g1
    simp only [fRet, evProg, zero_add] at g4
    cases g4
    exact ⟨x, g3, g2⟩
  refine ⟨fun hf => all _ _ hf rfl, fun hf => all _ _ hf rfl, fun hf => all _ _ hf rfl,
    fun hf => const _ _ hf rfl, fun hf => const _ _ hf rfl, ?_, ?_, ?_, fun hf => two _ _ _ _ hf rfl,
    fun hf => const _ _ hf rfl, fun hf => one _ _ _ hf rfl, fun hf => ?_, fun hf => ?_, fun hf => ?_,
    fun hf => one _ _ id hf rfl, fun hf => one _ _ id hf rfl, ?_, ?_, fun hf => one _ _ id hf rfl,
    fun hf => one _ _ id hf rfl⟩
  · intro hf
    obtain ⟨v, g1, g2⟩ := comp _ hf
    simp only [ownGet, livingGet] at g1
    cases hr : CashFlow.firstRetirement (s.world.people.map s.world.home.retirement) with
    | error e => rw [hr] at g1; cases g1
    | ok r =>
      rw [hr] at g1
      obtain ⟨m1, m2⟩ := (CashFlow.C63_first_retirement _ r).1.1 hr
      rw [hs.who] at m1 m2
      obtain ⟨x, g3, rfl⟩ := asks _ _ (hs.strategy Y r) g1
      obtain ⟨i, hi, hir⟩ := List.mem_map.1 m1
      refine ⟨r, x, ⟨i, hi, hir⟩, fun j hj => ?_, g3, g2⟩
      exact m2 _ (List.mem_map_of_mem hj)
  · intro hf
    obtain ⟨v, g1, g2⟩ := comp _ hf
    obtain ⟨x, g3, rfl⟩ := asks _ _ (hs.treatment Y) g1
    exact ⟨x, g3, g2⟩
  · intro hf hsub
    obtain ⟨v, g1, g2⟩ := comp _ hf
    simp only [ownGet, taxGet] at g1
    obtain ⟨x, g3, g4⟩ := people' _ _ _ _ g1
    rw [hs.who] at g4
    cases hp : people with
    | nil => rw [hp] at g4; cases g4
    | cons i0 l0 =>
      rw [← hp]
      have g5 : evProg (fval s) s (fSum ((people.flatMap s.world.home.accounts).dedup.map
          fun a => .base (.account a .taxWithheld)) (0 + x) fRet) = .ok v := by
        rw [hp] at g4 ⊢; exact g4
      obtain ⟨y, g6, g7⟩ := sums (fun a => .account a .taxWithheld) _ _ _ _ (fun a ha => by
        rw [List.mem_dedup, List.mem_flatMap] at ha
        obtain ⟨i, hi, ha⟩ := ha
        exact hsub i hi a ha) g5
      simp only [fRet, evProg, zero_add] at g7
      cases g7
      refine ⟨by rw [hp]; simp, x, y, g3, ⟨_, List.nodup_dedup _, fun a => ?_, g6⟩, g2⟩
      rw [List.mem_dedup, List.mem_flatMap]
  · rw [← sumOver']; exact const _ _ hf rfl
  · rw [← sumOver']; exact const _ _ hf rfl
  · rw [← sumOver']; exact const _ _ hf rfl
  · intro hf
    obtain ⟨x, y, g1, g2, g3⟩ := two .savings .income .expenses (fun x e => max (x - e) 0) hf rfl
    refine ⟨x, y, g1, g2, ?_⟩
    rw [g3]
    split
    · rw [max_eq_left]; linarith
    · rw [max_eq_right]; linarith
  · intro hf hsub
    obtain ⟨v, g1, g2⟩ := comp _ hf
    obtain ⟨x, g3, g4⟩ := sums (fun a => .account a .balance) s.world.assets 0 fRet v
      (fun a ha => hsub a ha) g1
    simp only [fRet, evProg, zero_add] at g4
    cases g4
    exact ⟨x, g3, g2⟩

/-- **C87** (what a look leaves behind). Reading a property that is not on record for its object's year:
the income forecast's figures, the net withdrawals, and the forecast's withdrawals and tax are computed
anew at every look; all others are put on record by the first look. -/
theorem C87_what_a_look_records (n : ℕ) (hn : 8 ≤ n) (s : FSt N A K) (p : FProp) (v : Val K)
    (h0 : s.now planned (.own p) = none) (hv : (read planned n (.own p) s).1 = .ok v) :
    (read planned n (.own p) s).2.now planned (.own p)
      = if p ∈ [FProp.assetSale, .carryover, .grossIncome, .incomeTaxWithheld, .netIncome,
          .netWithdrawals, .withdrawals, .tax] then none else some v := by
  have e := read_grow (planned_acyclic (N := N) (A := A) (K := K)) s n (.own p)
    (lt_of_lt_of_le (frank_lt _) hn) ∅ (closed_empty _ _ _)
  rw [grow_empty, Set.empty_union] at e
  rw [e] at hv ⊢
  simp only at hv ⊢
  obtain ⟨-, g2, g3, -⟩ := now_grow planned frank s (fills planned frank s (.own p)) (.own p)
  by_cases hc : (planned : Sys (FObj N A) (FKey N A) (Val K) (FWorld N A K)).cached (.own p) = true
  · rw [if_neg (by cases p <;> first | decide | cases hc)]
    refine g3 h0 ⟨?_, hc⟩ v hv
    rw [(val_none planned_acyclic h0).2]
    exact .inl rfl
  · rw [if_pos (by cases p <;> first | decide | exact absurd rfl hc)]
    exact g2 h0 fun hm => hc hm.2

/-- **C87** (an account's owner comes along). When an account's `next_year` succeeds, the account is a
year further on; its owner, if it has one, has first been brought up to the year the account was in
(and stays where it is if it was there or beyond); and no other object has moved. -/
theorem C87_account_brings_owner (n : ℕ) (hn : 8 ≤ n) (a : A) (s t : FSt N A K)
    (h : objNextYear n (.base (.account a)) s = (none, t)) (o : FObj N A) :
    t.year o = if o = .base (.account a) then s.year o + 1
      else if ∃ i, s.world.home.owner a = some i ∧ o = .base (.person i) then
        max (s.year o) (s.year (.base (.account a)))
      else s.year o := by
  have one : ∀ {o : FObj N A} {s t : FSt N A K}, closeOne n o s = (none, t) →
      ∀ o', t.year o' = if o' = o then s.year o + 1 else s.year o' := by
    intro o s t h o'
    simp only [closeOne] at h
    cases hr : nextYear planned n o s with
    | mk r u =>
      rw [hr] at h
      cases r with
      | some e => cases h
      | none => cases h; exact (nextYear_years hn hr).1 o'
  have many : ∀ (i : N) (m : ℕ) {s t : FSt N A K},
      turns (closeOne n (.base (.person i))) m s = (none, t) →
      ∀ o', t.year o' = if o' = .base (.person i) then s.year o' + m else s.year o' := by
    intro i m
    induction m with
    | zero => intro s t h o'; cases h; simp
    | succ m ih =>
      intro s t h o'
      simp only [turns] at h
      cases hr : closeOne n (.base (.person i)) s with
      | mk r u =>
        rw [hr] at h
        cases r with
        | some e => cases h
        | none =>
          rw [ih h o', one hr o']
          by_cases e : o' = .base (.person i)
          · subst e; simp only [if_true]; push_cast; omega
          · simp only [if_neg e]
  simp only [objNextYear] at h
  cases ho : s.world.home.owner a with
  | none =>
    rw [ho] at h
    rw [one h o]
    by_cases e : o = .base (.account a)
    · subst e; simp
    · simp [e]
  | some i =>
    rw [ho] at h
    simp only at h
    cases hr : turns (closeOne n (.base (.person i)))
        (s.year (.base (.account a)) - s.year (.base (.person i))).toNat s with
    | mk r u =>
      rw [hr] at h
      cases r with
      | some e => cases h
      | none =>
        rw [one h o]
        have hu := many i _ hr
        by_cases e : o = .base (.account a)
        · subst e
          simp only [if_true]
          rw [hu, if_neg (by simp)]
        · rw [if_neg e, if_neg e, hu o]
          by_cases e' : o = .base (.person i)
          · subst e'
            rw [if_pos rfl, if_pos ⟨i, rfl, rfl⟩]
            omega
          · rw [if_neg e', if_neg]
            rintro ⟨j, hj, ej⟩
            cases hj
            exact e' ej

/-- **C87** (a year that cannot be closed). If the tax adjustment cannot be computed, and the error is
anything but an AttributeError, `Forecast.next_year` raises it before anything has moved: every object is
still in its year, nothing but caches has changed, and what was on record stays there. -/
theorem C87_tax_error_stops_the_year (n : ℕ) (accounts : List A) (s : FSt N A K) (e : PyErr)
    (he : e ≠ .attributeError) (h : (read planned n (.own .taxAdjustment) s).1 = .error e) :
    (fnextYear n accounts s).1 = .error e ∧ (fnextYear n accounts s).2.year = s.year ∧
    (fnextYear n accounts s).2.world = s.world ∧
    ∀ k y v, Dict.get? (s.hist k) y = some v →
      Dict.get? ((fnextYear n accounts s).2.hist k) y = some v := by
  have g := (read_grows (planned : Sys (FObj N A) (FKey N A) (Val K) (FWorld N A K)) n
    (.own .taxAdjustment) s).1
  have hf : fnextYear n accounts s = (.error e, (read planned n (.own .taxAdjustment) s).2) := by
    simp only [fnextYear, h]
    cases e <;> first | rfl | exact absurd rfl he
  rw [hf]
  refine ⟨rfl, g.year, g.world, fun k y v hv => ?_⟩
  by_cases hy : y = s.year k.obj
  · subst hy
    have := g.stays k v hv
    simp only [St.now, g.year] at this
    exact this
  · rw [g.past k y hy]; exact hv

/-- A couple's plan in 2020, after the year's calls: 1000 and 600 of income (a quarter withheld), 200 in
an investment account they share and a loan of 50; living expenses are four fifths of net income, taxes a
fifth of gross income. -/
def plan : FWorld Bool Bool ℚ where
  home :=
    { retirement := fun i => some (if i then 2040 else 2035)
      raises := fun _ _ => .ok (1 / 10)
      tax := fun _ => some fun x _ => .ok (x / 4)
      accounts := fun i => if i then [false, true] else [false]
      rates := fun _ _ => .ok (1 / 20)
      growth := fun _ r t => 1 + r * t
      txns := fun a => if a then [(1, 30)] else [(0, 210)]
      owner := fun _ => some true
      rules := fun a => if a then none else some
        { taxable := fun _ _ => .ok 0
          withheld := fun _ d => .ok ((d.map fun e => e.2 / 10).sum)
          credit := fun _ _ => .ok 0
          deduction := fun _ _ => .ok 0 } }
  people := [true, false]
  assets := [false]
  retirementAccounts := [false]
  debts := [true]
  savingTxns := [(false, [(0, 210)]), (true, [(1, 30)])]
  incomeAvailable := 0
  withdrawalAvailable := 5
  withheld := -1
  strategy _ _ := .ask (.person true .netIncome) fun
    | .num x => .ask (.person false .netIncome) fun
      | .num y => .done (.ok ((x + y) * (4 / 5)))
      | .txns _ => .done (.error .typeError)
    | .txns _ => .done (.error .typeError)
  treatment _ := .ask (.person true .grossIncome) fun
    | .num x => .ask (.person false .grossIncome) fun
      | .num y => .done (.ok ((x + y) / 5))
      | .txns _ => .done (.error .typeError)
    | .txns _ => .done (.error .typeError)

/-- In 2020. -/
def planNew (w : FWorld Bool Bool ℚ) : FSt Bool Bool ℚ :=
  set planned (.base (.account true .balance)) (.num (-50))
    (set planned (.base (.account false .balance)) (.num 200)
    (set planned (.base (.person false .grossIncome)) (.num 600)
    (set planned (.base (.person true .grossIncome)) (.num 1000)
    (init (fun _ => 2020) (fun _ => none) w))))

theorem plan_inYear (s : FSt Bool Bool ℚ) (hw : s.world = plan) (hy : ∀ o, s.year o = 2020) :
    InYear 2020 [true, false] [false, true] s := by
  have c1 : ∀ y r, (plan.strategy y r).Concerns [true, false] [false, true] := by
    intro _ _
    refine ⟨by simp [Concerns], ?_⟩
    rintro (x | d)
    · refine ⟨by simp [Concerns], ?_⟩
      rintro (y | d) <;> trivial
    · trivial
  have c2 : ∀ y, (plan.treatment y).Concerns [true, false] [false, true] := by
    intro _
    refine ⟨by simp [Concerns], ?_⟩
    rintro (x | d)
    · refine ⟨by simp [Concerns], ?_⟩
      rintro (y | d) <;> trivial
    · trivial
  exact ⟨by decide, by decide, by rw [hw]; rfl, hy _, fun _ => hy _, fun _ _ => hy _, fun _ _ => hy _,
    fun _ _ _ _ => le_of_eq (hy _).symm, by rw [hw]; exact c1, by rw [hw]; exact c2⟩

theorem plan_read_year (w : FWorld Bool Bool ℚ) (k : FKey Bool Bool) (o : FObj Bool Bool) :
    (read planned 8 k (planNew w)).2.year o = 2020 :=
  congrFun ((read_grows planned 8 k (planNew w)).1.year) o

/-- The hypotheses of C87 on the couple's plan, and what is on record for 2020: net income 1200, living
expenses 960, savings 240, principal 200, tax owing 320, withheld 400 and 21, so that 101 is refunded. -/
example : InYear 2020 [true, false] [false, true] (planNew plan) ∧
    let r := fnextYear 8 [false, true] (planNew plan)
    let t := r.2
    r.1 = .ok (some (.num 101)) ∧
    Dict.get? (t.hist (.own .income)) 2020 = some (.num 1200) ∧
    Dict.get? (t.hist (.own .expenses)) 2020 = some (.num 960) ∧
    Dict.get? (t.hist (.own .savings)) 2020 = some (.num 240) ∧
    Dict.get? (t.hist (.own .principal)) 2020 = some (.num 200) ∧
    Dict.get? (t.hist (.own .tax)) 2020 = some (.num 320) ∧
    Dict.get? (t.hist (.own .taxWithheld)) 2020 = some (.num 421) ∧
    Dict.get? (t.hist (.own .withdrawals)) 2020 = some (.num (-5)) ∧
    Dict.get? (t.hist (.own .netWithdrawals)) 2020 = some (.num (-6)) ∧
    Dict.get? (t.hist (.own .savingTotal)) 2020 = some (.num 240) ∧
    Dict.get? (t.hist (.own .debtRepayment)) 2020 = some (.num 210) ∧
    (planNew plan).now planned (.own .savings) = none ∧
    (∀ i ∈ [true, false], ∀ a ∈ plan.home.accounts i, a ∈ [false, true]) ∧ t.year .forecast = 2021 := by
  exact ⟨plan_inYear _ rfl fun _ => rfl, by decide +kernel⟩

/-- **C87** (refuted: "whenever it is looked at"). If a forecast's withdrawals, or the total saved, are
read before the year's sub-forecasts have run, the figure is cached and is what goes on record, whatever
is then withdrawn or saved. -/
theorem C87_early_look_refuted :
    (¬ ∀ (w w' : FWorld Bool Bool ℚ) (t : FSt Bool Bool ℚ) (adj : Option (Val ℚ)),
      let early := (read planned 8 (.own .withdrawals) (planNew w)).2
      InYear 2020 [true, false] [false, true] { early with world := w' } →
      fnextYear 8 [false, true] { early with world := w' } = (.ok adj, t) →
      Dict.get? (t.hist (.own .withdrawals)) 2020 = some (.num (-w'.withdrawalAvailable))) ∧
    (¬ ∀ (w w' : FWorld Bool Bool ℚ) (t : FSt Bool Bool ℚ) (adj : Option (Val ℚ)),
      let early := (read planned 8 (.own .savingTotal) (planNew w)).2
      InYear 2020 [true, false] [false, true] { early with world := w' } →
      fnextYear 8 [false, true] { early with world := w' } = (.ok adj, t) →
      Dict.get? (t.hist (.own .savingTotal)) 2020
        = some (.num (toAccounts w'.savingTxns (Dict.keys w'.savingTxns)))) := by
  constructor
  · intro h
    have := h { plan with withdrawalAvailable := 0 } plan _ (some (.num 101)) (plan_inYear _ rfl
      (plan_read_year { plan with withdrawalAvailable := 0 } (.own .withdrawals))) (Prod.ext (by decide +kernel) rfl)
    revert this
    decide +kernel
  · intro h
    have := h { plan with savingTxns := [] } plan _ (some (.num 101)) (plan_inYear _ rfl
      (plan_read_year { plan with savingTxns := [] } (.own .savingTotal))) (Prod.ext (by decide +kernel) rfl)
    revert this
    decide +kernel

/-- C87: the two figures of the couple's withdrawal forecast, looked at before it has run: afterwards the
net withdrawals follow, the principal does not; a loan a year ahead of its owner; and a year in which the
tax treatment divides by zero. -/
example : (planNew plan).now planned (.own .netWithdrawals) = none ∧
    (read planned 8 (.own .netWithdrawals) (planNew plan)).1 = .ok (.num (-6)) ∧
    (let s := { planNew plan with
        year := fun o => if o = .base (.account true) then 2021 else 2020
        hist := fun k => if k = .base (.account true .balance) then [(2020, .num (-50)), (2021, .num (-50))]
          else (planNew plan).hist k }
      let r := objNextYear 8 (.base (.account true)) s
      r.1 = none ∧ r.2.year (.base (.person true)) = 2021 ∧ r.2.year (.base (.person false)) = 2020 ∧
      r.2.year (.base (.account true)) = 2022) ∧
    (read planned 8 (.own .taxAdjustment)
      (planNew { plan with treatment := fun _ => .done (.error .zeroDivisionError) })).1
        = .error .zeroDivisionError := by
  decide +kernel

/-- Tax rules of an account that look for something that is not there. -/
def badRules : Rules ℚ where
  taxable _ _ := .ok 0
  withheld _ _ := .error .attributeError
  credit _ _ := .ok 0
  deduction _ _ := .ok 0

/-- The couple's plan with such rules. -/
def badPlan : FWorld Bool Bool ℚ :=
  { plan with
    home := { plan.home with
      rules := fun a => if a then none else some badRules } }

/-- **C87** (refuted: "a year that cannot be closed leaves everything as it was"). If an account's tax
rules raise an AttributeError, it is taken for a forecast without tax figures (`hasattr`): `next_year`
goes on and raises it only when it closes the tax forecast, with the forecast itself and four of its
sub-forecasts already in the next year and everything else still in this one. -/
theorem C87_half_closed_refuted :
    ¬ ∀ (w : FWorld Bool Bool ℚ) (e : PyErr),
      (read planned 8 (.own .taxAdjustment) (planNew w)).1 = .error e →
      (fnextYear 8 [false, true] (planNew w)).1 = .error e ∧
      (fnextYear 8 [false, true] (planNew w)).2.year = (planNew w).year := by
  intro h
  obtain ⟨-, h2⟩ := h badPlan .attributeError (by decide +kernel)
  have h3 := congrFun h2 .forecast
  revert h3
  decide +kernel

/-- C87: in that year, the objects that have moved. -/
example : let r := fnextYear 8 [false, true] (planNew badPlan)
    r.1 = .error .attributeError ∧ r.2.year .forecast = 2021 ∧ r.2.year (.sub .income) = 2021 ∧
    r.2.year (.sub .withdrawal) = 2021 ∧ r.2.year (.sub .tax) = 2020 ∧
    r.2.year (.base (.person true)) = 2020 ∧ r.2.year (.base (.account true)) = 2020 := by
  decide +kernel

/-- **C87** (refuted: "debt repayments are on record"). `debt_repayment` records what was paid into
*retirement* accounts (saving.py:70-79 iterates over the wrong accounts). -/
theorem C87_debt_repayment_refuted :
    ¬ ∀ (w : FWorld Bool Bool ℚ) (t : FSt Bool Bool ℚ) (adj : Option (Val ℚ)),
      InYear 2020 [true, false] [false, true] (planNew w) →
      fnextYear 8 [false, true] (planNew w) = (.ok adj, t) →
      Dict.get? (t.hist (.own .debtRepayment)) 2020 = some (.num (toAccounts w.savingTxns w.debts)) := by
  intro h
  have := h plan _ (some (.num 101)) (plan_inYear _ rfl fun _ => rfl) (Prod.ext (by decide +kernel) rfl)
  revert this
  decide +kernel

end Forecaster.Recorded
