import Verif.Model.Taxable
import Verif.Model.Registered
import Verif.Model.RegisteredYears
import Verif.Lemmas.UnitsTax
import Verif.Lemmas.CalendarTax

/-!
# Capital gains and contribution room in another unit of money, and in other years (C127)

The property: a `TaxableAccount` whose opening balance, cost base and transactions are all stated in
cents instead of dollars reports its capital gains and cost base in cents, in every year; and so do
RRSPs and TFSAs and their contribution rooms, given the rules' amounts in cents too. If all years
are moved by a constant, no figure changes. What fails in the one case fails with the same exception
in the other.
-/

set_option linter.unusedSectionVars false

namespace Forecaster.Units

open Forecaster Forecaster.Timing Forecaster.Account Forecaster.Inflation

variable {K : Type} [Field K] [LinearOrder K] [IsStrictOrderedRing K] {c : K}

/-! ## Taxable accounts -/

section Taxable

open Forecaster.Taxable

/-- A taxable account with all amounts times `c`. -/
def ta (c : K) (a : TA K) : TA K := ⟨acct c a.acct, dict c a.acbHist, dict c a.gainHist⟩

/-- What is done to it. -/
def taOp (c : K) : Taxable.Op K → Taxable.Op K
  | .add v w => .add (c * v) w
  | .setItem w v => .setItem w (c * v)
  | .readGain => .readGain
  | .nextYear => .nextYear

theorem init_ta (year : ℤ) (balance : K) (growth : ℤ → K → K) (dt : Dict K K) (b : Option K) :
    Taxable.init year (c * balance) growth dt (b.map (c * ·)) = ta c (Taxable.init year balance growth dt b) := by
  cases b <;> rfl

theorem look_dict {κ : Type} [DecidableEq κ] (d : Dict κ K) (x : κ) :
    look (dict c d) x = (look d x).map (c * ·) := look_mapVals _ _ _

theorem acb_ta (a : TA K) : acb (ta c a) = (acb a).map (c * ·) := look_dict _ _

theorem gainStep_ta (hc : 0 < c) (a : Acct K) (s : K × K) (t : K) :
    gainStep (acct c a) (c * s.1, c * s.2) t =
      (gainStep a s t).map fun r => (c * r.1, c * r.2) := by
  unfold gainStep
  simp only [acct_txns, val_dict]
  have hp : (c * Dict.val a.txns t ≥ 0) ↔ Dict.val a.txns t ≥ 0 := mul_nonneg_iff_of_pos_left hc
  by_cases h : Dict.val a.txns t ≥ 0
  · simp only [hp, h, if_true, Except.map, mul_add]
  · simp only [hp, h, if_false, balanceAtTime_acct]
    cases balanceAtTime a (.num t) none with
    | error e => rfl
    | ok b =>
      simp only [Except.map, ok_bind, ← mul_sub, mul_eq_zero, hc.ne', false_or]
      by_cases hb : b - Dict.val a.txns t = 0
      · simp only [hb, if_true]
      · simp only [hb, if_false, Except.ok.injEq, Prod.mk.injEq]
        constructor
        · rw [neg_mul_eq_mul_neg, mul_div_mul_left _ _ hc.ne']; ring
        · rw [mul_div_mul_left _ _ hc.ne']; ring

theorem computeGain_ta (hc : 0 < c) (a : Acct K) (b : K) :
    computeGain (acct c a) (c * b) = (computeGain a b).map fun r => (c * r.1, c * r.2) := by
  unfold computeGain
  rw [acct_txns, keys_dict]
  have := foldlM_map (f := gainStep a) (f' := gainStep (acct c a))
    (g := fun r : K × K => (c * r.1, c * r.2)) ((Dict.keys a.txns).insertionSort (· ≤ ·))
    (fun s x _ => gainStep_ta hc a s x) (b, 0)
  rw [← this]
  simp only [mul_zero]

theorem capitalGain_ta (hc : 0 < c) (a : TA K) :
    capitalGain (ta c a) = (capitalGain a).map fun r => (c * r.1, ta c r.2) := by
  unfold capitalGain
  have h1 : Dict.get? (ta c a).gainHist (ta c a).acct.year = (Dict.get? a.gainHist a.acct.year).map (c * ·) :=
    get?_dict _ _ _
  rw [h1, acb_ta]
  cases Dict.get? a.gainHist a.acct.year with
  | some g => rfl
  | none =>
    simp only [Option.map_none]
    cases acb a with
    | error e => rfl
    | ok b =>
      simp only [Except.map, ok_bind]
      have h2 : (ta c a).acct = acct c a.acct := rfl
      rw [h2, computeGain_ta hc]
      cases computeGain a.acct b with
      | error e => rfl
      | ok r =>
        simp only [Except.map, ok_bind, Except.ok.injEq, Prod.mk.injEq, true_and]
        unfold ta
        simp only [acct_year, set_dict]

theorem invalidate_ta (a : TA K) : invalidate (ta c a) = ta c (invalidate a) := by
  unfold invalidate ta
  simp only [acct_year, del_dict]

theorem step_ta (hc : 0 < c) (a : TA K) (o : Taxable.Op K) :
    Taxable.step (ta c a) (taOp c o) = (Taxable.step a o).map (ta c) := by
  cases o with
  | add v w =>
    show (do let x ← Account.addTransaction (acct c a.acct) (c * v) w
             .ok (invalidate { ta c a with acct := x })) = _
    rw [addTransaction_acct, bind_map]
    simp only [Taxable.step, Taxable.addTransaction, map_bind]
    congr 1
    funext x
    exact congrArg Except.ok (invalidate_ta { a with acct := x })
  | setItem w v =>
    show (do let x ← Account.setItem (acct c a.acct) w (c * v)
             .ok (invalidate { ta c a with acct := x })) = _
    rw [setItem_acct, bind_map]
    simp only [Taxable.step, Taxable.setItem, map_bind]
    congr 1
    funext x
    exact congrArg Except.ok (invalidate_ta { a with acct := x })
  | readGain =>
    simp only [taOp, Taxable.step, capitalGain_ta hc]
    cases capitalGain a <;> rfl
  | nextYear =>
    simp only [taOp, Taxable.step, Taxable.nextYear, capitalGain_ta hc]
    cases capitalGain a with
    | error e => rfl
    | ok r =>
      simp only [Except.map, ok_bind, acb_ta]
      cases acb r.2 with
      | error e => rfl
      | ok b =>
        simp only [Except.map, ok_bind]
        have : (ta c r.2).acct = acct c r.2.acct := rfl
        rw [this, nextYear_acct]
        cases Account.nextYear r.2.acct <;> rfl

theorem run_ta (hc : 0 < c) (a : TA K) (ops : List (Taxable.Op K)) :
    Taxable.run (ta c a) (ops.map (taOp c)) = ta c (Taxable.run a ops) := by
  unfold Taxable.run
  induction ops generalizing a with
  | nil => rfl
  | cons o l ih =>
    simp only [List.map_cons, List.foldl_cons, step_ta hc]
    cases Taxable.step a o with
    | error e => exact ih a
    | ok a' => exact ih a'

/-- A taxable account opened with a balance (and a cost base, if one is given) in another unit, with
the same transactions in that unit, readings and years: its balance, cost base, capital gain and
taxable income are the same in the new unit, or fail with the same exception. -/
theorem C127_taxable_unit (hc : 0 < c) (year : ℤ) (balance : K) (growth : ℤ → K → K) (dt : Dict K K)
    (base : Option K) (ops : List (Taxable.Op K)) :
    let a := Taxable.run (Taxable.init year balance growth dt base) ops
    let b := Taxable.run (Taxable.init year (c * balance) growth dt (base.map (c * ·)))
      (ops.map (taOp c))
    b.acct.year = a.acct.year ∧
    Account.balance b.acct = (Account.balance a.acct).map (c * ·) ∧
    acb b = (acb a).map (c * ·) ∧
    (capitalGain b).map Prod.fst = ((capitalGain a).map Prod.fst).map (c * ·) ∧
    (Taxable.taxableIncome b).map Prod.fst = ((Taxable.taxableIncome a).map Prod.fst).map (c * ·) := by
  intro a b
  have hb : b = ta c a := by
    show Taxable.run (Taxable.init year (c * balance) growth dt (base.map (c * ·))) (ops.map (taOp c)) = _
    rw [init_ta, run_ta hc]
  rw [hb]
  refine ⟨rfl, balance_acct _, acb_ta _, ?_, ?_⟩
  · rw [capitalGain_ta hc]
    cases capitalGain a <;> rfl
  · unfold Taxable.taxableIncome
    rw [capitalGain_ta hc]
    cases capitalGain a with
    | error e => rfl
    | ok r => simp [Except.map, mul_div_assoc]

end Taxable

/-! ## Registered accounts -/

section Registered

open Forecaster.Registered

/-- A registered account with all amounts times `c`. -/
def reg (c : K) (r : Reg K) : Reg K := ⟨acct c r.acct, dict c r.roomHist, dict c r.inputs⟩

/-- A group of linked accounts. -/
def grp (c : K) (g : Grp K) : Grp K := ⟨g.accts.map (reg c), c * g.room, g.contribYear⟩

/-- What is done to it. -/
def regOp (c : K) : Registered.Op K → Registered.Op K
  | .add i v w => .add i (c * v) w
  | .nextYear i => .nextYear i

theorem getElem?_grp (g : Grp K) (i : ℕ) : (grp c g).accts[i]? = (g.accts[i]?).map (reg c) :=
  List.getElem?_map

theorem set_grp (g : Grp K) (i : ℕ) (r : Reg K) :
    { grp c g with accts := (grp c g).accts.set i (reg c r) } = grp c { g with accts := g.accts.set i r } := by
  unfold grp
  simp only [List.map_set]

theorem contributionRoom_grp (g : Grp K) (r : Reg K) :
    contributionRoom (grp c g) (reg c r) = c * contributionRoom g r := by
  unfold contributionRoom
  have : Dict.get? (reg c r).roomHist (reg c r).acct.year = (Dict.get? r.roomHist r.acct.year).map (c * ·) :=
    get?_dict _ _ _
  rw [this]
  cases Dict.get? r.roomHist r.acct.year <;> rfl

theorem setContributionRoom_grp (g : Grp K) (i : ℕ) (v : K) :
    setContributionRoom (grp c g) i (c * v) = (setContributionRoom g i v).map (grp c) := by
  unfold setContributionRoom
  rw [getElem?_grp]
  cases g.accts[i]? with
  | none => rfl
  | some r =>
    simp only [Option.map_some]
    have h1 : Dict.keys (reg c r).inputs = Dict.keys r.inputs := keys_dict _ _
    have h2 : (reg c r).acct.year = r.acct.year := rfl
    rw [h1, h2]
    by_cases h : r.acct.year ∈ Dict.keys r.inputs
    · simp only [h, if_true, Except.map]
    · simp only [h, if_false, Except.map, Except.ok.injEq]
      unfold grp
      simp only [List.map_set]
      congr 2
      unfold reg
      simp only [del_dict]

theorem advance_grp (g : Grp K) (r : Reg K) :
    advance (grp c g) (reg c r) = (advance g r).map (reg c) := by
  unfold advance
  have h0 : (reg c r).acct = acct c r.acct := rfl
  rw [h0, nextYear_acct]
  cases Account.nextYear r.acct with
  | error e => rfl
  | ok a =>
    simp only [Except.map, ok_bind, Except.ok.injEq]
    have h1 : Dict.keys (reg c r).roomHist = Dict.keys r.roomHist := keys_dict _ _
    have h2 : (reg c r).roomHist = dict c r.roomHist := rfl
    have h3 : (grp c g).room = c * g.room := rfl
    unfold reg
    simp only [acct_year, keys_dict, h3, set_dict]
    split_ifs <;> rfl

theorem inSync_grp (g : Grp K) (y : ℤ) : inSync (grp c g) y = inSync g y := by
  unfold inSync grp
  rw [List.all_map]
  rfl

theorem behind_grp (y : ℤ) (g : Grp K) (j : ℕ) : behind y (grp c g) j = behind y g j := by
  unfold behind
  rw [getElem?_grp]
  cases g.accts[j]? <;> rfl

theorem catchUp_grp {rec rec' : Grp K → ℕ → Except PyErr (Grp K)}
    (h : ∀ g i, rec' (grp c g) i = (rec g i).map (grp c)) (y : ℤ) (j n : ℕ) (g : Grp K) :
    catchUp rec' y j n (grp c g) = (catchUp rec y j n g).map (grp c) := by
  induction n generalizing g with
  | zero => rfl
  | succ n ih =>
    simp only [catchUp, getElem?_grp]
    cases g.accts[j]? with
    | none => rfl
    | some r =>
      simp only [Option.map_some]
      have h2 : (reg c r).acct.year = r.acct.year := rfl
      rw [h2]
      by_cases hy : r.acct.year < y
      · simp only [hy, if_true, h]
        cases rec g j with
        | error e => rfl
        | ok g' => exact ih g'
      · simp only [hy, if_false, Except.map]

variable {next next' : Grp K → Reg K → Except PyErr K}

theorem plannedRoom_grp (h : ∀ g r, next' (grp c g) (reg c r) = (next g r).map (c * ·)) (g : Grp K)
    (r : Reg K) : plannedRoom next' (grp c g) (reg c r) = (plannedRoom next g r).map (Option.map (c * ·)) := by
  unfold plannedRoom
  rw [inSync_grp]
  have h2 : (reg c r).acct.year = r.acct.year := rfl
  have h3 : ∀ y, Dict.get? (reg c r).roomHist y = (Dict.get? r.roomHist y).map (c * ·) :=
    fun y => get?_dict _ _ _
  rw [h2, h3, h]
  split_ifs
  · cases Dict.get? r.roomHist (r.acct.year + 1) with
    | some v => rfl
    | none => cases next g r <;> rfl
  · rfl

theorem nextYear_grp (h : ∀ g r, next' (grp c g) (reg c r) = (next g r).map (c * ·)) (fuel : ℕ)
    (g : Grp K) (i : ℕ) :
    Registered.nextYear next' fuel (grp c g) i = (Registered.nextYear next fuel g i).map (grp c) := by
  induction fuel generalizing g i with
  | zero => rfl
  | succ n ih =>
    simp only [Registered.nextYear, getElem?_grp]
    cases g.accts[i]? with
    | none => rfl
    | some r =>
      simp only [Option.map_some, plannedRoom_grp h, advance_grp]
      cases plannedRoom next g r with
      | error e => rfl
      | ok room =>
        simp only [Except.map, ok_bind]
        cases advance g r with
        | error e => rfl
        | ok r' =>
          have h2 : (reg c r').acct.year = r'.acct.year := rfl
          simp only [ok_bind, set_grp, h2]
          have hl : ((grp c g).accts.set i (reg c r')).length = (g.accts.set i r').length := by
            simp [grp]
          rw [hl, foldlM_map (f := fun g j => catchUp (Registered.nextYear next n) r'.acct.year j
            (behind r'.acct.year g j) g) (g := grp c) _
            (fun g j _ => by rw [behind_grp]; exact catchUp_grp ih _ _ _ _)]
          cases List.foldlM (fun g j => catchUp (Registered.nextYear next n) r'.acct.year j
            (behind r'.acct.year g j) g) { g with accts := g.accts.set i r' }
            (List.range (g.accts.set i r').length) with
          | error e => rfl
          | ok g' =>
            simp only [Except.map, ok_bind]
            cases room with
            | none => rfl
            | some v => exact setContributionRoom_grp { g' with contribYear := max g'.contribYear r'.acct.year } i v

theorem addTo_grp (g : Grp K) (i : ℕ) (v : K) (w : When K) :
    addTo (grp c g) i (c * v) w = (addTo g i v w).map (grp c) := by
  unfold addTo
  rw [getElem?_grp]
  cases g.accts[i]? with
  | none => rfl
  | some r =>
    simp only [Option.map_some]
    have h0 : (reg c r).acct = acct c r.acct := rfl
    rw [h0, addTransaction_acct]
    cases Account.addTransaction r.acct v w with
    | error e => rfl
    | ok a =>
      simp only [Except.map, ok_bind, Except.ok.injEq]
      exact set_grp g i { r with acct := a }

theorem step_grp (h : ∀ g r, next' (grp c g) (reg c r) = (next g r).map (c * ·)) (fuel : ℕ)
    (g : Grp K) (o : Registered.Op K) :
    Registered.step next' fuel (grp c g) (regOp c o) = (Registered.step next fuel g o).map (grp c) := by
  cases o with
  | add i v w => exact addTo_grp g i v w
  | nextYear i => exact nextYear_grp h fuel g i

theorem run_grp (h : ∀ g r, next' (grp c g) (reg c r) = (next g r).map (c * ·)) (fuel : ℕ)
    (g : Grp K) (ops : List (Registered.Op K)) :
    Registered.run next' fuel (grp c g) (ops.map (regOp c)) = grp c (Registered.run next fuel g ops) := by
  unfold Registered.run
  induction ops generalizing g with
  | nil => rfl
  | cons o l ih =>
    simp only [List.map_cons, List.foldl_cons, step_grp h]
    cases Registered.step next fuel g o with
    | error e => exact ih g
    | ok a' => exact ih a'

/-- The rules for RRSPs with all amounts times `c`: the accrual maximums and the thresholds of the
withholding tax. -/
def rrspConst (c : K) (k : RrspConst K) : RrspConst K :=
  { k with
    accrualMax := dict c k.accrualMax
    withholding := Dict.mapVals (thresholds c) k.withholding }

/-- What an RRSP knows, in another unit of money. -/
def rrspEnv (c : K) (e : RrspEnv K) : RrspEnv K :=
  { e with
    const := rrspConst c e.const
    income := fun y => (e.income y).map (c * ·) }

theorem extendScalar_dict (d : Dict ℤ K) (adj : Adjust K) (y : ℤ) :
    extendScalar (dict c d) adj y = (extendScalar d adj y).map (c * ·) := by
  unfold extendScalar
  rw [get?_dict]
  cases Dict.get? d y with
  | some v => rfl
  | none =>
    simp only [Option.map_none]
    have : nearestYear (dict c d) y = nearestYear d y := nearestYear_mapVals _ _ _
    rw [this]
    cases nearestYear d y with
    | none => rfl
    | some b =>
      simp only [look_dict]
      split_ifs
      · cases look d b with
        | error e => rfl
        | ok v =>
          simp only [Except.map, ok_bind]
          cases adj y b with
          | error e => rfl
          | ok f => simp [mul_assoc]
      · rfl

theorem rrspNext_grp (hc : 0 < c) (e : RrspEnv K) (g : Grp K) (r : Reg K) :
    rrspNext (rrspEnv c e) (grp c g) (reg c r) = (rrspNext e g r).map (c * ·) := by
  unfold rrspNext
  show (do
    let age ← e.contributorAge (r.acct.year + 1)
    if e.const.conversionAge < age then .ok 0
    else do
      let income ← (e.income r.acct.year).map (c * ·)
      let most ← extendScalar (dict c e.const.accrualMax) e.adj (r.acct.year + 1)
      .ok (min (income * e.const.rate) most +
        (contributionRoom (grp c g) (reg c r) - inflows (acct c r.acct) none))) = _
  rw [extendScalar_dict, contributionRoom_grp, inflows_acct hc]
  cases e.contributorAge (r.acct.year + 1) with
  | error e => rfl
  | ok age =>
    simp only [ok_bind]
    split_ifs
    · simp [Except.map]
    · cases e.income r.acct.year with
      | error e => rfl
      | ok x =>
        simp only [Except.map, ok_bind]
        cases extendScalar e.const.accrualMax e.adj (r.acct.year + 1) with
        | error e => rfl
        | ok m =>
          simp only [ok_bind, Except.ok.injEq]
          rw [mul_add, mul_sub, mul_min_of_nonneg _ _ hc.le, mul_assoc]

/-- A group of RRSPs, opened with balances, room and inputs in another unit, the contributor's income
and the rules' amounts in that unit, with the same contributions, withdrawals and years: the room and
every account are the same in the new unit. -/
theorem C127_rrsp_unit (hc : 0 < c) (e : RrspEnv K) (fuel : ℕ) (g : Grp K)
    (ops : List (Registered.Op K)) :
    Registered.run (rrspNext (rrspEnv c e)) fuel (grp c g) (ops.map (regOp c)) =
      grp c (Registered.run (rrspNext e) fuel g ops) :=
  run_grp (rrspNext_grp hc e) fuel g ops

/-- What a group reports, account by account, compared to the group in another unit. -/
theorem figures_grp (g : Grp K) (i : ℕ) (r : Reg K) (h : g.accts[i]? = some r) :
    ∃ r', (grp c g).accts[i]? = some r' ∧ r'.acct.year = r.acct.year ∧
      Account.balance r'.acct = (Account.balance r.acct).map (c * ·) ∧
      contributionRoom (grp c g) r' = c * contributionRoom g r ∧ r'.acct.txns = dict c r.acct.txns := by
  refine ⟨reg c r, ?_, rfl, balance_acct _, contributionRoom_grp g r, rfl⟩
  rw [getElem?_grp, h, Option.map_some]

/-- The figures of a new group of RRSPs after any program: in another unit, every account has the same
balance, room and transactions in that unit. -/
theorem C127_rrsp_figures (hc : 0 < c) (e : RrspEnv K) (fuel : ℕ) (accts : List (Acct K)) (room : K)
    (y : ℤ) (ops : List (Registered.Op K)) (i : ℕ) (r : Reg K) :
    let g := Registered.run (rrspNext e) fuel (newGroup accts room y) ops
    let g' := Registered.run (rrspNext (rrspEnv c e)) fuel (newGroup (accts.map (acct c)) (c * room) y)
      (ops.map (regOp c))
    g.accts[i]? = some r →
    ∃ r', g'.accts[i]? = some r' ∧ r'.acct.year = r.acct.year ∧
      Account.balance r'.acct = (Account.balance r.acct).map (c * ·) ∧
      contributionRoom g' r' = c * contributionRoom g r ∧ r'.acct.txns = dict c r.acct.txns := by
  intro g g' h
  have hn : newGroup (accts.map (acct c)) (c * room) y = grp c (newGroup accts room y) := by
    unfold newGroup grp
    simp only [List.map_map]
    rfl
  have hg : g' = grp c g := by
    show Registered.run _ _ (newGroup (accts.map (acct c)) (c * room) y) _ = _
    rw [hn]
    exact C127_rrsp_unit hc e fuel _ ops
  rw [hg]
  exact figures_grp g i r h

theorem minimumDistribution_acct (e : RrspEnv K) (conversion : ℤ) (a : Acct K) :
    minimumDistribution (rrspEnv c e) conversion (acct c a) =
      (minimumDistribution e conversion a).map (c * ·) := by
  unfold minimumDistribution
  simp only [acct_year, balance_acct]
  show (if conversion < a.year then do
      let age ← e.contributorAge a.year
      let b ← (balance a).map (c * ·)
      match Dict.get? e.const.withdrawalMin age with
      | some f => .ok (f * b)
      | none =>
        match (Dict.keys e.const.withdrawalMin).max?, (Dict.vals e.const.withdrawalMin).max? with
        | some top, some f =>
          if top < age then .ok (b * f)
          else if (90 - age : ℤ) = 0 then .error .zeroDivisionError
          else .ok (b / ((90 - age : ℤ) : K))
        | _, _ => .error .valueError
    else .ok 0) = _
  split_ifs
  · cases e.contributorAge a.year with
    | error e => rfl
    | ok age =>
      simp only [ok_bind]
      cases balance a with
      | error e => rfl
      | ok b =>
        simp only [Except.map, ok_bind]
        cases Dict.get? e.const.withdrawalMin age with
        | some f => simp only [mul_left_comm]
        | none =>
          simp only
          cases (Dict.keys e.const.withdrawalMin).max? with
          | none => rfl
          | some top =>
            cases (Dict.vals e.const.withdrawalMin).max? with
            | none => rfl
            | some f =>
              simp only
              split_ifs
              · simp only [mul_assoc]
              · rfl
              · simp only [mul_div_assoc]
  · simp [Except.map]

theorem withhold_mul (hc : 0 < c) (e : RrspEnv K) (y : ℤ) (x : K) :
    withhold (rrspEnv c e) y (c * x) = (withhold e y x).map (c * ·) := by
  unfold withhold
  have h1 : (rrspEnv c e).const.withholding = Dict.mapVals (thresholds c) e.const.withholding := rfl
  have h2 : (rrspEnv c e).adj = e.adj := rfl
  rw [h1, h2, nearestYear_mapVals]
  cases nearestYear e.const.withholding y with
  | none => rfl
  | some b =>
    simp only [look_mapVals]
    cases look e.const.withholding b with
    | error e => rfl
    | ok rates =>
      simp only [Except.map, ok_bind]
      cases e.adj b y with
      | error e => rfl
      | ok f =>
        simp only [ok_bind, keys_thresholds]
        have hl : ∀ t, look (thresholds c rates) (c * t) = look rates t := by
          intro t
          unfold look
          have := get?_keyed hc (fun v : K => v) rates t
          have h' : Dict.get? (thresholds c rates) (c * t) = Dict.get? rates t := by
            unfold thresholds
            rw [this]
            simp
          rw [h']
        have hf : (List.map (c * ·) (Dict.keys rates)).filter (fun t => decide (t < c * x * f)) =
            ((Dict.keys rates).filter fun t => decide (t < x * f)).map (c * ·) := by
          rw [List.filter_map]
          congr 1
          apply List.filter_congr
          intro t _
          simp only [Function.comp]
          rw [mul_assoc, decide_eq_decide]
          exact mul_lt_mul_iff_right₀ hc
        rw [hf, max?_mul hc, min?_mul hc]
        cases ((Dict.keys rates).filter fun t => decide (t < x * f)).max? with
        | some t =>
          simp only [Option.map_some, hl]
          cases look rates t with
          | error e => rfl
          | ok r => simp [mul_assoc]
        | none =>
          simp only [Option.map_none]
          cases (Dict.keys rates).min? with
          | none => rfl
          | some t =>
            simp only [Option.map_some, hl]
            cases look rates t with
            | error e => rfl
            | ok r => simp [mul_assoc]

/-- The minimum withdrawal of a RRIF, and the tax withheld from an RRSP or RRIF, in another unit. -/
theorem C127_withholding_unit (hc : 0 < c) (e : RrspEnv K) (conversion : ℤ) (a : Acct K) (shared : K) :
    minimumDistribution (rrspEnv c e) conversion (acct c a) =
      (minimumDistribution e conversion a).map (c * ·) ∧
    minOutflowLimit (rrspEnv c e) conversion (acct c a) (c * shared) =
      (minOutflowLimit e conversion a shared).map (c * ·) ∧
    taxWithheld (rrspEnv c e) conversion (acct c a) (c * shared) =
      (taxWithheld e conversion a shared).map (c * ·) ∧
    rrspTaxableIncome (acct c a) = c * rrspTaxableIncome a ∧
    rrspTaxDeduction (acct c a) = c * rrspTaxDeduction a := by
  have hm : minOutflowLimit (rrspEnv c e) conversion (acct c a) (c * shared) =
      (minOutflowLimit e conversion a shared).map (c * ·) := by
    unfold minOutflowLimit
    rw [minimumDistribution_acct]
    cases minimumDistribution e conversion a with
    | error e => rfl
    | ok m =>
      simp only [Except.map, ok_bind, Except.ok.injEq]
      rw [mul_min_of_nonneg _ _ hc.le, mul_neg]
  have hi : rrspTaxableIncome (acct c a) = c * rrspTaxableIncome a := by
    unfold rrspTaxableIncome
    rw [outflows_acct hc, mul_neg]
  refine ⟨minimumDistribution_acct e conversion a, hm, ?_, hi, inflows_acct hc a⟩
  unfold taxWithheld
  rw [hm, hi, acct_year]
  split_ifs
  · exact withhold_mul hc e _ _
  · cases minOutflowLimit e conversion a shared with
    | error e => rfl
    | ok m =>
      simp only [Except.map, ok_bind, ← mul_sub]
      exact withhold_mul hc e _ _

section TFSA

variable [FloorRing K]

/-- What a TFSA knows, in another unit of money: the yearly amounts and the amount they are rounded
to. -/
def tfsaEnv (c : K) (e : TfsaEnv K) : TfsaEnv K :=
  { e with const := { e.const with annual := dict c e.const.annual, unit := c * e.const.unit } }

theorem roundTo_mul (hc : 0 < c) (u x : K) : roundTo (c * u) (c * x) = (roundTo u x).map (c * ·) := by
  unfold roundTo
  simp only [mul_eq_zero, hc.ne', false_or, mul_div_mul_left _ _ hc.ne']
  split_ifs
  · rfl
  · simp only [Except.map, mul_left_comm]

theorem baseAccrual_env (hc : 0 < c) (e : TfsaEnv K) :
    baseAccrual (tfsaEnv c e) = (baseAccrual e).map (c * ·) := by
  unfold baseAccrual
  have hy : baseYear (tfsaEnv c e) = baseYear e := by
    unfold baseYear
    have : Dict.keys (tfsaEnv c e).const.annual = Dict.keys e.const.annual := keys_dict _ _
    rw [this]
  rw [hy]
  cases baseYear e with
  | error e => rfl
  | ok y =>
    have h1 : look (tfsaEnv c e).const.annual y = (look e.const.annual y).map (c * ·) := look_dict _ _
    simp only [ok_bind, h1]
    cases look e.const.annual y with
    | error e => rfl
    | ok v => exact roundTo_mul hc _ _

theorem accrual_env (hc : 0 < c) (e : TfsaEnv K) (y : ℤ) :
    accrual (tfsaEnv c e) y = (accrual e y).map (c * ·) := by
  have hb : baseYear (tfsaEnv c e) = baseYear e := by
    unfold baseYear
    have : Dict.keys (tfsaEnv c e).const.annual = Dict.keys e.const.annual := keys_dict _ _
    rw [this]
  have h1 : Dict.get? (tfsaEnv c e).const.annual y = (Dict.get? e.const.annual y).map (c * ·) :=
    get?_dict _ _ _
  unfold accrual
  rw [h1, hb, baseAccrual_env hc]
  show (do
    let age ← e.ownerAge (y + 1)
    if age < e.const.eligibility then .ok 0
    else match (Dict.get? e.const.annual y).map (c * ·) with
      | some v => .ok v
      | none => do
        let b ← (baseAccrual e).map (c * ·)
        let y0 ← baseYear e
        let f ← e.adj y0 y
        roundTo (c * e.const.unit) (b * f)) = _
  cases e.ownerAge (y + 1) with
  | error e => rfl
  | ok age =>
    simp only [ok_bind]
    split_ifs
    · simp [Except.map]
    · cases Dict.get? e.const.annual y with
      | some v => rfl
      | none =>
        simp only [Option.map_none]
        cases baseAccrual e with
        | error e => rfl
        | ok b =>
          simp only [Except.map, ok_bind]
          cases baseYear e with
          | error e => rfl
          | ok y0 =>
            simp only [ok_bind]
            cases e.adj y0 y with
            | error e => rfl
            | ok f =>
              simp only [ok_bind, mul_assoc]
              exact roundTo_mul hc _ _

theorem tfsaNext_grp (hc : 0 < c) (e : TfsaEnv K) (g : Grp K) (r : Reg K) :
    tfsaNext (tfsaEnv c e) (grp c g) (reg c r) = (tfsaNext e g r).map (c * ·) := by
  unfold tfsaNext
  have h0 : (reg c r).acct = acct c r.acct := rfl
  rw [accrual_env hc, contributionRoom_grp, h0, inflows_acct hc, outflows_acct hc, acct_year]
  cases accrual e (r.acct.year + 1) with
  | error e => rfl
  | ok a => simp only [Except.map, ok_bind, ← mul_add, ← mul_sub]

/-- The same for TFSAs. -/
theorem C127_tfsa_unit (hc : 0 < c) (e : TfsaEnv K) (fuel : ℕ) (g : Grp K)
    (ops : List (Registered.Op K)) :
    Registered.run (tfsaNext (tfsaEnv c e)) fuel (grp c g) (ops.map (regOp c)) =
      grp c (Registered.run (tfsaNext e) fuel g ops) :=
  run_grp (tfsaNext_grp hc e) fuel g ops

/-- The figures of a new group of TFSAs after any program. -/
theorem C127_tfsa_figures (hc : 0 < c) (e : TfsaEnv K) (fuel : ℕ) (accts : List (Acct K)) (room : K)
    (y : ℤ) (ops : List (Registered.Op K)) (i : ℕ) (r : Reg K) :
    let g := Registered.run (tfsaNext e) fuel (newGroup accts room y) ops
    let g' := Registered.run (tfsaNext (tfsaEnv c e)) fuel (newGroup (accts.map (acct c)) (c * room) y)
      (ops.map (regOp c))
    g.accts[i]? = some r →
    ∃ r', g'.accts[i]? = some r' ∧ r'.acct.year = r.acct.year ∧
      Account.balance r'.acct = (Account.balance r.acct).map (c * ·) ∧
      contributionRoom g' r' = c * contributionRoom g r ∧ r'.acct.txns = dict c r.acct.txns := by
  intro g g' h
  have hn : newGroup (accts.map (acct c)) (c * room) y = grp c (newGroup accts room y) := by
    unfold newGroup grp
    simp only [List.map_map]
    rfl
  have hg : g' = grp c g := by
    show Registered.run _ _ (newGroup (accts.map (acct c)) (c * room) y) _ = _
    rw [hn]
    exact C127_tfsa_unit hc e fuel _ ops
  rw [hg]
  exact figures_grp g i r h

theorem accruals_env (hc : 0 < c) (e : TfsaEnv K) (a b : ℤ) :
    accruals (tfsaEnv c e) a b = (accruals e a b).map (c * ·) := by
  unfold accruals
  have := foldlM_map (f := fun (s : K) y => do let x ← accrual e y; .ok (s + x))
    (f' := fun (s : K) y => do let x ← accrual (tfsaEnv c e) y; .ok (s + x)) (g := (c * ·))
    (pyRange a b) (fun s y _ => by
      simp only [accrual_env hc]
      cases accrual e y with
      | error e => rfl
      | ok x => simp [Except.map, mul_add]) 0
  rw [← this]
  simp only [mul_zero]

/-- A new TFSA, with its room given or inferred, in another unit. -/
theorem C127_new_tfsa_unit (hc : 0 < c) (e : TfsaEnv K) (a : Acct K) (inputs : Dict ℤ K)
    (room : Option K) (y : ℤ) :
    tfsaInit (tfsaEnv c e) (acct c a) (dict c inputs) (room.map (c * ·)) y =
      (tfsaInit e a inputs room y).map (grp c) := by
  have hs : ∀ v, single (acct c a) (dict c inputs) (c * v) y = grp c (single a inputs v y) :=
    fun _ => rfl
  have hb : baseYear (tfsaEnv c e) = baseYear e := by
    unfold baseYear
    have : Dict.keys (tfsaEnv c e).const.annual = Dict.keys e.const.annual := keys_dict _ _
    rw [this]
  have hi : inferRoom (tfsaEnv c e) (dict c inputs) a.year =
      (inferRoom e inputs a.year).map (c * ·) := by
    unfold inferRoom
    have he : (dict c inputs).isEmpty = inputs.isEmpty := by cases inputs <;> rfl
    rw [get?_dict, he, keys_dict, hb]
    cases Dict.get? inputs a.year with
    | some v => rfl
    | none =>
      simp only [Option.map_none]
      split_ifs
      · show (e.contributorAge a.year >>= _) = _
        cases e.contributorAge a.year with
        | error e => rfl
        | ok age =>
          simp only [ok_bind]
          cases baseYear e with
          | error e => rfl
          | ok b => exact accruals_env hc e _ _
      · cases ((Dict.keys inputs).filter fun t => decide (t < a.year)).max? with
        | none => rfl
        | some last =>
          simp only [look_dict, accruals_env hc]
          cases look inputs last with
          | error e => rfl
          | ok v =>
            simp only [Except.map, ok_bind]
            cases accruals e (last + 1) (a.year + 1) with
            | error e => rfl
            | ok s => simp [mul_add]
  unfold tfsaInit
  rw [baseAccrual_env hc]
  cases baseAccrual e with
  | error e => rfl
  | ok b =>
    simp only [Except.map, ok_bind]
    cases room with
    | some v => simp [hs]
    | none =>
      simp only [Option.map_none, acct_year, hi]
      cases inferRoom e inputs a.year with
      | error e => rfl
      | ok v => simp [Except.map, hs]

end TFSA

end Registered

end Forecaster.Units

namespace Forecaster.Calendar

open Forecaster Forecaster.Timing Forecaster.Account Forecaster.Inflation Forecaster.Taxable
open Forecaster.Units (foldlM_map)

variable {K : Type} [Field K] [LinearOrder K] [IsStrictOrderedRing K] {k : ℤ}

/-- A taxable account `k` years later. -/
def ta (k : ℤ) (a : TA K) : TA K := ⟨acct k a.acct, years k a.acbHist, years k a.gainHist⟩

theorem del_years {V : Type} (d : Dict ℤ V) (y : ℤ) :
    Dict.del (years k d) (y + k) = years k (Dict.del d y) := by
  induction d with
  | nil => rfl
  | cons e d ih =>
    show Dict.del ((e.1 + k, e.2) :: years k d) (y + k) = _
    simp only [Dict.del, add_left_inj]
    split_ifs
    · rfl
    · exact congrArg _ ih

theorem acb_ta (a : TA K) : acb (ta k a) = acb a := look_years _ _

theorem computeGain_ta (a : Acct K) (b : K) : computeGain (acct k a) b = computeGain a b := by
  unfold computeGain
  rw [acct_txns]
  congr 1
  funext s t
  unfold gainStep
  rw [acct_txns, balanceAtTime_acct]

theorem capitalGain_ta (a : TA K) :
    capitalGain (ta k a) = (capitalGain a).map fun r => (r.1, ta k r.2) := by
  unfold capitalGain
  have h1 : Dict.get? (ta k a).gainHist (ta k a).acct.year = Dict.get? a.gainHist a.acct.year :=
    get?_years _ _
  rw [h1, acb_ta]
  cases Dict.get? a.gainHist a.acct.year with
  | some g => rfl
  | none =>
    simp only
    cases acb a with
    | error e => rfl
    | ok b =>
      simp only [ok_bind]
      have h2 : (ta k a).acct = acct k a.acct := rfl
      rw [h2, computeGain_ta]
      cases computeGain a.acct b with
      | error e => rfl
      | ok r =>
        simp only [Except.map, ok_bind, Except.ok.injEq, Prod.mk.injEq, true_and]
        unfold ta
        have h3 : a.acct.year + k + 1 = a.acct.year + 1 + k := by ring
        simp only [acct_year, h3, set_years]

theorem invalidate_ta (a : TA K) : invalidate (ta k a) = ta k (invalidate a) := by
  unfold invalidate ta
  have h3 : a.acct.year + k + 1 = a.acct.year + 1 + k := by ring
  simp only [acct_year, h3, del_years]

theorem step_ta (a : TA K) (o : Taxable.Op K) :
    Taxable.step (ta k a) o = (Taxable.step a o).map (ta k) := by
  cases o with
  | add v w =>
    show (do let x ← Account.addTransaction (acct k a.acct) v w
             .ok (invalidate { ta k a with acct := x })) = _
    rw [addTransaction_acct, Units.bind_map]
    simp only [Taxable.step, Taxable.addTransaction, Units.map_bind]
    congr 1
    funext x
    exact congrArg Except.ok (invalidate_ta { a with acct := x })
  | setItem w v =>
    show (do let x ← Account.setItem (acct k a.acct) w v
             .ok (invalidate { ta k a with acct := x })) = _
    rw [setItem_acct, Units.bind_map]
    simp only [Taxable.step, Taxable.setItem, Units.map_bind]
    congr 1
    funext x
    exact congrArg Except.ok (invalidate_ta { a with acct := x })
  | readGain =>
    simp only [Taxable.step, capitalGain_ta]
    cases capitalGain a <;> rfl
  | nextYear =>
    simp only [Taxable.step, Taxable.nextYear, capitalGain_ta]
    cases capitalGain a with
    | error e => rfl
    | ok r =>
      simp only [Except.map, ok_bind, acb_ta]
      cases acb r.2 with
      | error e => rfl
      | ok b =>
        simp only [ok_bind]
        have : (ta k r.2).acct = acct k r.2.acct := rfl
        rw [this, nextYear_acct]
        cases Account.nextYear r.2.acct <;> rfl

theorem run_ta (a : TA K) (ops : List (Taxable.Op K)) :
    Taxable.run (ta k a) ops = ta k (Taxable.run a ops) := by
  unfold Taxable.run
  induction ops generalizing a with
  | nil => rfl
  | cons o l ih =>
    simp only [List.foldl_cons, step_ta]
    cases Taxable.step a o with
    | error e => exact ih a
    | ok a' => exact ih a'

/-- A taxable account opened `k` years later, at the rates of `k` years before, has the same
figures. -/
theorem C127_taxable_years (k : ℤ) (year : ℤ) (balance : K) (growth : ℤ → K → K) (dt : Dict K K)
    (base : Option K) (ops : List (Taxable.Op K)) :
    let a := Taxable.run (Taxable.init year balance growth dt base) ops
    let b := Taxable.run (Taxable.init (year + k) balance (fun y => growth (y - k)) dt base) ops
    b.acct.year = a.acct.year + k ∧
    Account.balance b.acct = Account.balance a.acct ∧
    acb b = acb a ∧
    (capitalGain b).map Prod.fst = (capitalGain a).map Prod.fst ∧
    (Taxable.taxableIncome b).map Prod.fst = (Taxable.taxableIncome a).map Prod.fst := by
  intro a b
  have hb : b = ta k a := by
    show Taxable.run (ta k (Taxable.init year balance growth dt base)) ops = _
    rw [run_ta]
  rw [hb]
  refine ⟨rfl, balance_acct _, acb_ta _, ?_, ?_⟩
  · rw [capitalGain_ta]
    cases capitalGain a <;> rfl
  · unfold Taxable.taxableIncome
    rw [capitalGain_ta]
    cases capitalGain a <;> rfl

/-! ## Registered accounts in other years -/

section Registered

open Forecaster.Registered

/-- A registered account `k` years later. -/
def reg (k : ℤ) (r : Reg K) : Reg K := ⟨acct k r.acct, years k r.roomHist, years k r.inputs⟩

/-- A group of linked accounts. -/
def grp (k : ℤ) (g : Grp K) : Grp K := ⟨g.accts.map (reg k), g.room, g.contribYear + k⟩

omit [Field K] [LinearOrder K] [IsStrictOrderedRing K] in
theorem getElem?_grp (g : Grp K) (i : ℕ) : (grp k g).accts[i]? = (g.accts[i]?).map (reg k) :=
  List.getElem?_map

omit [Field K] [LinearOrder K] [IsStrictOrderedRing K] in
theorem set_grp (g : Grp K) (i : ℕ) (r : Reg K) :
    { grp k g with accts := (grp k g).accts.set i (reg k r) } = grp k { g with accts := g.accts.set i r } := by
  unfold grp
  simp only [List.map_set]

theorem contributionRoom_grp (g : Grp K) (r : Reg K) :
    contributionRoom (grp k g) (reg k r) = contributionRoom g r := by
  unfold contributionRoom
  have : Dict.get? (reg k r).roomHist (reg k r).acct.year = Dict.get? r.roomHist r.acct.year :=
    get?_years _ _
  rw [this]
  cases Dict.get? r.roomHist r.acct.year <;> rfl

theorem setContributionRoom_grp (g : Grp K) (i : ℕ) (v : K) :
    setContributionRoom (grp k g) i v = (setContributionRoom g i v).map (grp k) := by
  unfold setContributionRoom
  rw [getElem?_grp]
  cases g.accts[i]? with
  | none => rfl
  | some r =>
    simp only [Option.map_some]
    have h1 : (reg k r).acct.year ∈ Dict.keys (reg k r).inputs ↔ r.acct.year ∈ Dict.keys r.inputs := by
      show r.acct.year + k ∈ Dict.keys (years k r.inputs) ↔ _
      rw [keys_years, mem_years]
    by_cases h : r.acct.year ∈ Dict.keys r.inputs
    · simp only [h1, h, if_true, Except.map]
    · simp only [h1, h, if_false, Except.map, Except.ok.injEq]
      unfold grp
      simp only [List.map_set]
      congr 2
      unfold reg
      simp only [acct_year, del_years]

theorem advance_grp (g : Grp K) (r : Reg K) :
    advance (grp k g) (reg k r) = (advance g r).map (reg k) := by
  unfold advance
  have h0 : (reg k r).acct = acct k r.acct := rfl
  rw [h0, nextYear_acct]
  cases Account.nextYear r.acct with
  | error e => rfl
  | ok a =>
    simp only [Except.map, ok_bind, Except.ok.injEq]
    have h3 : (grp k g).room = g.room := rfl
    unfold reg
    simp only [acct_year, keys_years, mem_years, h3, set_years]
    split_ifs <;> rfl

theorem inSync_grp (g : Grp K) (y : ℤ) : inSync (grp k g) (y + k) = inSync g y := by
  unfold inSync grp
  rw [List.all_map]
  congr 1
  funext s
  show decide (s.acct.year + k = y + k) = _
  simp

theorem behind_grp (y : ℤ) (g : Grp K) (j : ℕ) : behind (y + k) (grp k g) j = behind y g j := by
  unfold behind
  rw [getElem?_grp]
  cases g.accts[j]? with
  | none => rfl
  | some s =>
    show (y + k - (s.acct.year + k)).toNat = _
    rw [add_sub_add_right_eq_sub]

theorem catchUp_grp {rec rec' : Grp K → ℕ → Except PyErr (Grp K)}
    (h : ∀ g i, rec' (grp k g) i = (rec g i).map (grp k)) (y : ℤ) (j n : ℕ) (g : Grp K) :
    catchUp rec' (y + k) j n (grp k g) = (catchUp rec y j n g).map (grp k) := by
  induction n generalizing g with
  | zero => rfl
  | succ n ih =>
    simp only [catchUp, getElem?_grp]
    cases g.accts[j]? with
    | none => rfl
    | some r =>
      simp only [Option.map_some]
      have h2 : (reg k r).acct.year < y + k ↔ r.acct.year < y := by
        show r.acct.year + k < y + k ↔ _
        omega
      by_cases hy : r.acct.year < y
      · simp only [h2, hy, if_true, h]
        cases rec g j with
        | error e => rfl
        | ok g' => exact ih g'
      · simp only [h2, hy, if_false, Except.map]

variable {next next' : Grp K → Reg K → Except PyErr K}

theorem plannedRoom_grp (h : ∀ g r, next' (grp k g) (reg k r) = next g r) (g : Grp K)
    (r : Reg K) : plannedRoom next' (grp k g) (reg k r) = plannedRoom next g r := by
  unfold plannedRoom
  have h2 : (reg k r).acct.year = r.acct.year + k := rfl
  have h3 : Dict.get? (reg k r).roomHist (r.acct.year + k + 1) =
      Dict.get? r.roomHist (r.acct.year + 1) := by
    have : r.acct.year + k + 1 = r.acct.year + 1 + k := by ring
    rw [this]
    exact get?_years _ _
  rw [h2, inSync_grp, h3, h]

theorem nextYear_grp (h : ∀ g r, next' (grp k g) (reg k r) = next g r) (fuel : ℕ)
    (g : Grp K) (i : ℕ) :
    Registered.nextYear next' fuel (grp k g) i = (Registered.nextYear next fuel g i).map (grp k) := by
  induction fuel generalizing g i with
  | zero => rfl
  | succ n ih =>
    simp only [Registered.nextYear, getElem?_grp]
    cases g.accts[i]? with
    | none => rfl
    | some r =>
      simp only [Option.map_some, plannedRoom_grp h, advance_grp]
      cases plannedRoom next g r with
      | error e => rfl
      | ok room =>
        simp only [Except.map, ok_bind]
        cases advance g r with
        | error e => rfl
        | ok r' =>
          have h2 : (reg k r').acct.year = r'.acct.year + k := rfl
          simp only [ok_bind, set_grp, h2]
          have hl : ((grp k g).accts.set i (reg k r')).length = (g.accts.set i r').length := by
            simp [grp]
          rw [hl, foldlM_map (f := fun g j => catchUp (Registered.nextYear next n) r'.acct.year j
            (behind r'.acct.year g j) g) (g := grp k) _
            (fun g j _ => by rw [behind_grp]; exact catchUp_grp ih _ _ _ _)]
          cases List.foldlM (fun g j => catchUp (Registered.nextYear next n) r'.acct.year j
            (behind r'.acct.year g j) g) { g with accts := g.accts.set i r' }
            (List.range (g.accts.set i r').length) with
          | error e => rfl
          | ok g' =>
            simp only [Except.map, ok_bind]
            have hm : { grp k g' with contribYear := max (grp k g').contribYear (r'.acct.year + k) } =
                grp k { g' with contribYear := max g'.contribYear r'.acct.year } := by
              unfold grp
              simp only [max_add_add_right]
            rw [hm]
            cases room with
            | none => rfl
            | some v => exact setContributionRoom_grp { g' with contribYear := max g'.contribYear r'.acct.year } i v

theorem addTo_grp (g : Grp K) (i : ℕ) (v : K) (w : When K) :
    addTo (grp k g) i v w = (addTo g i v w).map (grp k) := by
  unfold addTo
  rw [getElem?_grp]
  cases g.accts[i]? with
  | none => rfl
  | some r =>
    simp only [Option.map_some]
    have h0 : (reg k r).acct = acct k r.acct := rfl
    rw [h0, addTransaction_acct]
    cases Account.addTransaction r.acct v w with
    | error e => rfl
    | ok a =>
      simp only [Except.map, ok_bind, Except.ok.injEq]
      exact set_grp g i { r with acct := a }

theorem run_grp (h : ∀ g r, next' (grp k g) (reg k r) = next g r) (fuel : ℕ)
    (g : Grp K) (ops : List (Registered.Op K)) :
    Registered.run next' fuel (grp k g) ops = grp k (Registered.run next fuel g ops) := by
  unfold Registered.run
  induction ops generalizing g with
  | nil => rfl
  | cons o l ih =>
    have hs : Registered.step next' fuel (grp k g) o = (Registered.step next fuel g o).map (grp k) := by
      cases o with
      | add i v w => exact addTo_grp g i v w
      | nextYear i => exact nextYear_grp h fuel g i
    simp only [List.foldl_cons, hs]
    cases Registered.step next fuel g o with
    | error e => exact ih g
    | ok a' => exact ih a'

/-- What an RRSP knows, `k` years later: the tables of rules, the inflation, the ages and the
contributor's income are those of `k` years before. -/
def rrspEnv (k : ℤ) (e : RrspEnv K) : RrspEnv K :=
  { const := { e.const with
      accrualMax := years k e.const.accrualMax
      withholding := years k e.const.withholding }
    adj := adjust k e.adj
    ownerAge := fun y => e.ownerAge (y - k)
    contributorAge := fun y => e.contributorAge (y - k)
    income := fun y => e.income (y - k) }

theorem extendScalar_years (d : Dict ℤ K) (f : Adjust K) (y : ℤ) :
    extendScalar (years k d) (adjust k f) (y + k) = extendScalar d f y := by
  unfold extendScalar
  rw [get?_years, nearestYear_years]
  cases Dict.get? d y with
  | some v => rfl
  | none =>
    cases nearestYear d y with
    | none => rfl
    | some base =>
      have h : base + k ≠ y + k ↔ base ≠ y := by omega
      simp only [Option.map_some, h, look_years, adjust, add_sub_cancel_right]

theorem rrspNext_grp (e : RrspEnv K) (g : Grp K) (r : Reg K) :
    rrspNext (rrspEnv k e) (grp k g) (reg k r) = rrspNext e g r := by
  unfold rrspNext
  rw [contributionRoom_grp]
  have h1 : (reg k r).acct = acct k r.acct := rfl
  have h2 : r.acct.year + k + 1 = r.acct.year + 1 + k := by ring
  have h3 : ∀ y, (rrspEnv k e).contributorAge (y + k) = e.contributorAge y := fun y => by
    simp [rrspEnv]
  have h4 : ∀ y, (rrspEnv k e).income (y + k) = e.income y := fun y => by
    simp [rrspEnv]
  have h5 : (rrspEnv k e).const.accrualMax = years k e.const.accrualMax := rfl
  have h6 : (rrspEnv k e).adj = adjust k e.adj := rfl
  rw [h1, acct_year, h2, h3, h4, h5, h6, extendScalar_years, inflows_acct]
  rfl

/-- A group of RRSPs `k` years later, under the rules and at the ages, incomes and rates of `k` years
before: the same figures. -/
theorem C127_rrsp_years (k : ℤ) (e : RrspEnv K) (fuel : ℕ) (g : Grp K) (ops : List (Registered.Op K)) :
    Registered.run (rrspNext (rrspEnv k e)) fuel (grp k g) ops =
      grp k (Registered.run (rrspNext e) fuel g ops) :=
  run_grp (rrspNext_grp e) fuel g ops

theorem minimumDistribution_acct (e : RrspEnv K) (conversion : ℤ) (a : Acct K) :
    minimumDistribution (rrspEnv k e) (conversion + k) (acct k a) = minimumDistribution e conversion a := by
  unfold minimumDistribution
  have h1 : conversion + k < a.year + k ↔ conversion < a.year := by omega
  have h3 : (rrspEnv k e).contributorAge (a.year + k) = e.contributorAge a.year := by
    simp [rrspEnv]
  simp only [acct_year, balance_acct, h1, h3]
  rfl

theorem withhold_years (e : RrspEnv K) (y : ℤ) (x : K) :
    withhold (rrspEnv k e) (y + k) x = withhold e y x := by
  unfold withhold
  have h1 : (rrspEnv k e).const.withholding = years k e.const.withholding := rfl
  have h2 : (rrspEnv k e).adj = adjust k e.adj := rfl
  rw [h1, h2, nearestYear_years]
  cases nearestYear e.const.withholding y with
  | none => rfl
  | some b => simp only [Option.map_some, look_years, adjust, add_sub_cancel_right]

/-- The conversion to a RRIF, its minimum withdrawal and the tax withheld, `k` years later. -/
theorem C127_withholding_years (k : ℤ) (e : RrspEnv K) (conversion initialYear : ℤ)
    (stored : Option ℤ) (a : Acct K) (shared : K) :
    conversionYear (rrspEnv k e) (initialYear + k) (stored.map (· + k)) =
      (conversionYear e initialYear stored).map (· + k) ∧
    minimumDistribution (rrspEnv k e) (conversion + k) (acct k a) = minimumDistribution e conversion a ∧
    taxWithheld (rrspEnv k e) (conversion + k) (acct k a) shared = taxWithheld e conversion a shared := by
  refine ⟨?_, minimumDistribution_acct e conversion a, ?_⟩
  · cases stored with
    | some y => rfl
    | none =>
      unfold conversionYear
      simp only [Option.map_none, maxConversionYear]
      have h3 : (rrspEnv k e).ownerAge (initialYear + k) = e.ownerAge initialYear := by
        simp [rrspEnv]
      rw [h3]
      cases e.ownerAge initialYear with
      | error e => rfl
      | ok age =>
        simp only [ok_bind, Except.map, Except.ok.injEq]
        show initialYear + k + e.const.conversionAge - age = _
        ring
  · unfold taxWithheld minOutflowLimit
    have h1 : a.year + k < conversion + k ↔ a.year < conversion := by omega
    rw [minimumDistribution_acct, acct_year]
    simp only [h1, withhold_years]
    rfl

section TFSA

variable [FloorRing K]

/-- What a TFSA knows, `k` years later. -/
def tfsaEnv (k : ℤ) (e : TfsaEnv K) : TfsaEnv K :=
  { const := { e.const with annual := years k e.const.annual }
    adj := adjust k e.adj
    ownerAge := fun y => e.ownerAge (y - k)
    contributorAge := fun y => e.contributorAge (y - k) }

theorem baseYear_env (e : TfsaEnv K) : baseYear (tfsaEnv k e) = (baseYear e).map (· + k) := by
  unfold baseYear
  have : Dict.keys (tfsaEnv k e).const.annual = (Dict.keys e.const.annual).map (· + k) := keys_years _
  rw [this, min?_years]
  cases (Dict.keys e.const.annual).min? <;> rfl

theorem baseAccrual_env (e : TfsaEnv K) : baseAccrual (tfsaEnv k e) = baseAccrual e := by
  unfold baseAccrual
  rw [baseYear_env]
  have h : ∀ y, look (tfsaEnv k e).const.annual (y + k) = look e.const.annual y := fun y => look_years _ _
  cases baseYear e with
  | error e => rfl
  | ok y => simp only [Except.map, ok_bind, h]; rfl

theorem accrual_env (e : TfsaEnv K) (y : ℤ) : accrual (tfsaEnv k e) (y + k) = accrual e y := by
  unfold accrual
  have h1 : y + k + 1 = y + 1 + k := by ring
  have h2 : ∀ y, (tfsaEnv k e).ownerAge (y + k) = e.ownerAge y := fun y => by simp [tfsaEnv]
  have h3 : Dict.get? (tfsaEnv k e).const.annual (y + k) = Dict.get? e.const.annual y := get?_years _ _
  rw [h1, h2, h3, baseAccrual_env, baseYear_env]
  cases e.ownerAge (y + 1) with
  | error e => rfl
  | ok age =>
    simp only [ok_bind]
    show (if age < e.const.eligibility then _ else _) = _
    split_ifs
    · rfl
    · cases Dict.get? e.const.annual y with
      | some v => rfl
      | none =>
        simp only
        cases baseAccrual e with
        | error e => rfl
        | ok b =>
          simp only [ok_bind]
          cases baseYear e with
          | error e => rfl
          | ok y0 =>
            simp only [Except.map, ok_bind]
            have h4 : (tfsaEnv k e).adj (y0 + k) (y + k) = e.adj y0 y := by
              simp [tfsaEnv, adjust]
            rw [h4]
            rfl

theorem tfsaNext_grp (e : TfsaEnv K) (g : Grp K) (r : Reg K) :
    tfsaNext (tfsaEnv k e) (grp k g) (reg k r) = tfsaNext e g r := by
  unfold tfsaNext
  have h1 : (reg k r).acct = acct k r.acct := rfl
  have h2 : r.acct.year + k + 1 = r.acct.year + 1 + k := by ring
  rw [contributionRoom_grp, h1, acct_year, h2, accrual_env, inflows_acct, outflows_acct]

/-- The same for TFSAs. -/
theorem C127_tfsa_years (k : ℤ) (e : TfsaEnv K) (fuel : ℕ) (g : Grp K) (ops : List (Registered.Op K)) :
    Registered.run (tfsaNext (tfsaEnv k e)) fuel (grp k g) ops =
      grp k (Registered.run (tfsaNext e) fuel g ops) :=
  run_grp (tfsaNext_grp e) fuel g ops

theorem accruals_env (e : TfsaEnv K) (a b : ℤ) :
    accruals (tfsaEnv k e) (a + k) (b + k) = accruals e a b := by
  unfold accruals
  rw [pyRange_years, List.foldlM_map]
  congr 1
  funext s y
  rw [accrual_env]

/-- A new TFSA, with its room given or inferred, `k` years later. -/
theorem C127_new_tfsa_years (k : ℤ) (e : TfsaEnv K) (a : Acct K) (inputs : Dict ℤ K)
    (room : Option K) (y : ℤ) :
    tfsaInit (tfsaEnv k e) (acct k a) (years k inputs) room (y + k) =
      (tfsaInit e a inputs room y).map (grp k) := by
  have hs : ∀ v, single (acct k a) (years k inputs) v (y + k) = grp k (single a inputs v y) :=
    fun _ => rfl
  have hi : inferRoom (tfsaEnv k e) (years k inputs) (a.year + k) = inferRoom e inputs a.year := by
    unfold inferRoom
    have he : (years k inputs).isEmpty = inputs.isEmpty := by cases inputs <;> rfl
    have h3 : (tfsaEnv k e).contributorAge (a.year + k) = e.contributorAge a.year := by simp [tfsaEnv]
    rw [get?_years, he, keys_years, filter_lt, max?_years, baseYear_env, h3]
    have h1 : a.year + k + 1 = a.year + 1 + k := by ring
    rw [h1]
    cases Dict.get? inputs a.year with
    | some v => rfl
    | none =>
      simp only
      split_ifs
      · cases e.contributorAge a.year with
        | error e => rfl
        | ok age =>
          simp only [ok_bind]
          cases baseYear e with
          | error e => rfl
          | ok b =>
            simp only [Except.map, ok_bind]
            have h4 : max (a.year + k - age + (tfsaEnv k e).const.eligibility) (b + k) =
                max (a.year - age + e.const.eligibility) b + k := by
              rw [← max_add_add_right]
              congr 1
              show a.year + k - age + e.const.eligibility = _
              ring
            rw [h4, accruals_env]
      · cases ((Dict.keys inputs).filter fun t => decide (t < a.year)).max? with
        | none => rfl
        | some last =>
          have h5 : last + k + 1 = last + 1 + k := by ring
          simp only [Option.map_some, look_years, h5, accruals_env]
  unfold tfsaInit
  rw [baseAccrual_env]
  cases baseAccrual e with
  | error e => rfl
  | ok b =>
    simp only [ok_bind]
    cases room with
    | some v => simp [hs, Except.map]
    | none =>
      simp only [acct_year, hi]
      cases inferRoom e inputs a.year with
      | error e => rfl
      | ok v => simp [Except.map, hs]

end TFSA

end Registered

end Forecaster.Calendar

namespace Forecaster.Units

/-- A concrete case: 100 dollars, contributions of 50 and 20, a withdrawal of 30 after a year of 10%
growth, and the same in cents. -/
def exampleOps : List (Taxable.Op ℚ) :=
  [.add 50 (.str "start"), .nextYear, .add (-30) (.str "start"), .setItem (.num 1) 20, .readGain]

/-- The account of the example in dollars (`c = 1`) or cents (`c = 100`). -/
def exampleAccount (c : ℚ) : Taxable.TA ℚ :=
  Taxable.run (Taxable.init 2000 (c * 100) (fun _ t => 1 + t / 10) [(1 / 2, 1)] (some (c * 80)))
    (exampleOps.map (taOp c))

example : ((Taxable.capitalGain (exampleAccount 1)).map Prod.fst).toOption = some (70 / 11) ∧
    ((Taxable.capitalGain (exampleAccount 100)).map Prod.fst).toOption = some (7000 / 11) := by
  decide +kernel

end Forecaster.Units
