import Verif.Model.Account
import Verif.Model.Inflation
import Mathlib.Algebra.Order.Floor.Ring

/-!
# `forecaster/canada/accounts/registered_account.py`, `tfsa.py` and `rrsp.py`

A group of registered accounts that share contribution room (`max_inflow_link`, same contributor
and token) is a list of accounts in the order in which Python happens to iterate over the set
`max_inflow_link.group` (any order), the shared room and the contributor's current year.

Not modelled: the recording of the tax properties by `next_year` (their values are modelled as
functions), `inputs` for anything but `contribution_room`, the owner's year, `None` as shared
room after construction.
-/

namespace Forecaster.Registered

open Forecaster Forecaster.Timing Forecaster.Account Forecaster.Inflation

section Group

variable {K : Type} [Field K] [LinearOrder K] [IsStrictOrderedRing K]

/-- One registered account: the underlying account, the history dict of the recorded property
`contribution_room` and its `inputs` (registered_account.py:112-116, ledger/base.py:77-92). -/
structure Reg (K : Type) where
  acct : Acct K
  roomHist : Dict ℤ K
  inputs : Dict ℤ K

/-- A group of linked accounts with its shared room (`max_inflow_limit`, linked_limit.py:83-92) and
the contributor's `this_year`. -/
structure Grp (K : Type) where
  accts : List (Reg K)
  room : K
  contribYear : ℤ

/-- `account.contribution_room` (registered_account.py:106-110 inside recorded_property.py:59-65). -/
def contributionRoom (g : Grp K) (r : Reg K) : K :=
  match Dict.get? r.roomHist r.acct.year with
  | some v => v
  | none => g.room

/-- `account.contribution_room = v` for account number `i` (registered_account.py:112-116 inside
recorded_property.py:67-86). -/
def setContributionRoom (g : Grp K) (i : ℕ) (v : K) : Except PyErr (Grp K) :=
  match g.accts[i]? with
  | none => .error .indexError
  | some r =>
    if r.acct.year ∈ Dict.keys r.inputs then .ok g
    else .ok { g with accts := g.accts.set i { r with roomHist := Dict.del r.roomHist r.acct.year }
                      room := v }

/-- `Account.next_year` of one account, with the recording of `contribution_room`
(accounts/base.py:388-406, ledger/base.py:94-111). -/
def advance (g : Grp K) (r : Reg K) : Except PyErr (Reg K) := do
  let a ← Account.nextYear r.acct
  .ok { r with acct := a
               roomHist := if r.acct.year ∈ Dict.keys r.roomHist then r.roomHist
                           else Dict.set r.roomHist r.acct.year g.room }

/-- `while account.this_year < y: account.next_year()` (registered_account.py:153-154): `rec` is
the recursive call and `n` bounds the number of turns; it is called with the number of years
missing. -/
def catchUp (rec : Grp K → ℕ → Except PyErr (Grp K)) (y : ℤ) (j : ℕ) :
    ℕ → Grp K → Except PyErr (Grp K)
  | 0, g => .ok g
  | n + 1, g =>
    match g.accts[j]? with
    | none => .error .indexError
    | some r => if r.acct.year < y then do let g ← rec g j; catchUp rec y j n g else .ok g

/-- The turns account number `j` may need to get to year `y`. -/
def behind (y : ℤ) (g : Grp K) (j : ℕ) : ℕ :=
  match g.accts[j]? with
  | some r => (y - r.acct.year).toNat
  | none => 0

/-- `all(account.this_year == self.this_year for account in group)`
(registered_account.py:128-131). -/
def inSync (g : Grp K) (y : ℤ) : Bool := g.accts.all fun s => decide (s.acct.year = y)

/-- The room for next year (registered_account.py:134-144): a value already known for next year
(from `inputs`), else `next_contribution_room()`, which is the parameter `next`. Only the first
account of the group to be advanced determines it. -/
def plannedRoom (next : Grp K → Reg K → Except PyErr K) (g : Grp K) (r : Reg K) :
    Except PyErr (Option K) :=
  if inSync g r.acct.year then
    match Dict.get? r.roomHist (r.acct.year + 1) with
    | some v => .ok (some v)
    | none => do let v ← next g r; .ok (some v)
  else .ok none

/-- `RegisteredAccount.next_year` of account number `i` (registered_account.py:118-163). The fuel
bounds the depth of the recursion (Python's `RecursionError`); `C52` shows how much is enough. -/
def nextYear (next : Grp K → Reg K → Except PyErr K) : ℕ → Grp K → ℕ → Except PyErr (Grp K)
  | 0, _, _ => .error .recursionError
  | fuel + 1, g, i =>
    match g.accts[i]? with
    | none => .error .indexError
    | some r => do
      let room ← plannedRoom next g r
      let r' ← advance g r
      let y := r'.acct.year
      let g := { g with accts := g.accts.set i r' }
      let g ← (List.range g.accts.length).foldlM
        (fun g j => catchUp (nextYear next fuel) y j (behind y g j) g) g
      let g := { g with contribYear := max g.contribYear y }
      match room with
      | some v => setContributionRoom g i v
      | none => .ok g

/-- `account.add_transaction(value, when)` on account number `i`. -/
def addTo (g : Grp K) (i : ℕ) (v : K) (w : When K) : Except PyErr (Grp K) :=
  match g.accts[i]? with
  | none => .error .indexError
  | some r => do
    let a ← addTransaction r.acct v w
    .ok { g with accts := g.accts.set i { r with acct := a } }

/-- What a forecast does with a group of accounts. -/
inductive Op (K : Type)
  | add (i : ℕ) (v : K) (w : When K)
  | nextYear (i : ℕ)

/-- Effect of one operation. -/
def step (next : Grp K → Reg K → Except PyErr K) (fuel : ℕ) (g : Grp K) :
    Op K → Except PyErr (Grp K)
  | .add i v w => addTo g i v w
  | .nextYear i => nextYear next fuel g i

/-- Effect of a program; operations that raise change nothing. -/
def run (next : Grp K → Reg K → Except PyErr K) (fuel : ℕ) (g : Grp K) (ops : List (Op K)) :
    Grp K :=
  ops.foldl (fun g op => match step next fuel g op with | .ok g' => g' | .error _ => g) g

/-- A new registered account and its group (registered_account.py:15-94): the room is the one
given, or the one given for the first year in `inputs`. -/
def single (acct : Acct K) (inputs : Dict ℤ K) (room : K) (contribYear : ℤ) : Grp K :=
  { accts := [⟨acct, inputs, inputs⟩], room, contribYear }

/-- `_process_alias_args` (registered_account.py:182-254). `P` is a contributor, `T` a token, `L` a
link given as such. `none` means "not passed". The result is the link (given or to be built) and
the limit. -/
def processAliasArgs {P T L : Type} (room : Option K) (contributor : Option P) (token : Option T)
    (kwLimit : Option (Option K)) (kwLink : Option L) (defP : P) (defT : T) :
    Except PyErr ((L ⊕ (P × T)) × Option K) :=
  let limit : Except PyErr (Option K) := match room, kwLimit with
    | some _, some _ => .error .valueError
    | none, some l => .ok l
    | r, none => .ok r
  do
    let limit ← limit
    match kwLink with
    | some l =>
      if contributor.isSome ∨ token.isSome then .error .valueError else .ok (.inl l, limit)
    | none => .ok (.inr (contributor.getD defP, token.getD defT), limit)

end Group

/-! ### TFSA -/

section TFSA

variable {K : Type} [Field K] [LinearOrder K] [IsStrictOrderedRing K] [FloorRing K]

/-- Python's `round(x)`: to the nearest integer, halves to the even one. -/
def pyRound (x : K) : ℤ :=
  let d := x - (⌊x⌋ : K)
  if d < 1 / 2 then ⌊x⌋ else if 1 / 2 < d then ⌊x⌋ + 1
  else if ⌊x⌋ % 2 = 0 then ⌊x⌋ else ⌊x⌋ + 1

/-- The `TFSA_*` constants (canada/constants.py:99-113). -/
structure TfsaConst (K : Type) where
  annual : Dict ℤ K
  eligibility : ℤ
  unit : K

/-- What a TFSA knows about the world: constants, inflation and the ages of owner and
contributor. -/
structure TfsaEnv (K : Type) where
  const : TfsaConst K
  adj : Adjust K
  ownerAge : ℤ → Except PyErr ℤ
  contributorAge : ℤ → Except PyErr ℤ

/-- `min(TFSA_ANNUAL_ACCRUAL.keys())` (tfsa.py:43). -/
def baseYear (e : TfsaEnv K) : Except PyErr ℤ :=
  match (Dict.keys e.const.annual).min? with
  | some y => .ok y
  | none => .error .valueError

/-- `round(x / unit) * unit` (tfsa.py:44-49, 115-121). -/
def roundTo (unit x : K) : Except PyErr K :=
  if unit = 0 then .error .zeroDivisionError else .ok ((pyRound (x / unit) : ℤ) * unit)

/-- `_base_accrual` (tfsa.py:44-49). -/
def baseAccrual (e : TfsaEnv K) : Except PyErr K := do
  let y ← baseYear e
  let v ← look e.const.annual y
  roundTo e.const.unit v

/-- `_contribution_room_accrual` (tfsa.py:100-121). -/
def accrual (e : TfsaEnv K) (year : ℤ) : Except PyErr K := do
  let age ← e.ownerAge (year + 1)
  if age < e.const.eligibility then .ok 0
  else match Dict.get? e.const.annual year with
    | some v => .ok v
    | none => do
      let b ← baseAccrual e
      let y ← baseYear e
      let f ← e.adj y year
      roundTo e.const.unit (b * f)

/-- `TFSA.next_contribution_room` (tfsa.py:123-129). -/
def tfsaNext (e : TfsaEnv K) (g : Grp K) (r : Reg K) : Except PyErr K := do
  let a ← accrual e (r.acct.year + 1)
  .ok (a + (contributionRoom g r - (outflows r.acct none + inflows r.acct none)))

/-- `sum(accrual(year) for year in range(a, b))`. -/
def accruals (e : TfsaEnv K) (a b : ℤ) : Except PyErr K :=
  (pyRange a b).foldlM (fun s y => do let x ← accrual e y; .ok (s + x)) 0

/-- `_infer_initial_contribution_rm` (tfsa.py:57-98) with the `contribution_room` inputs given. -/
def inferRoom (e : TfsaEnv K) (inputs : Dict ℤ K) (y0 : ℤ) : Except PyErr K :=
  match Dict.get? inputs y0 with
  | some v => .ok v
  | none =>
    if inputs.isEmpty then do
      let age ← e.contributorAge y0
      let b ← baseYear e
      accruals e (max (y0 - age + e.const.eligibility) b) (y0 + 1)
    else
      match ((Dict.keys inputs).filter fun y => decide (y < y0)).max? with
      | none => .error .valueError
      | some last => do
        let v ← look inputs last
        let s ← accruals e (last + 1) (y0 + 1)
        .ok (v + s)

/-- A new TFSA (tfsa.py:10-53) that is the first of its group. -/
def tfsaInit (e : TfsaEnv K) (acct : Acct K) (inputs : Dict ℤ K) (room : Option K)
    (contribYear : ℤ) : Except PyErr (Grp K) := do
  let _ ← baseAccrual e
  match room with
  | some v => .ok (single acct inputs v contribYear)
  | none => do
    let v ← inferRoom e inputs acct.year
    .ok (single acct inputs v contribYear)

end TFSA

/-! ### RRSP -/

section RRSP

variable {K : Type} [Field K] [LinearOrder K] [IsStrictOrderedRing K]

/-- The `RRSP_*` constants (canada/constants.py:58-97). -/
structure RrspConst (K : Type) where
  rate : K
  accrualMax : Dict ℤ K
  withholding : Dict ℤ (Dict K K)
  conversionAge : ℤ
  withdrawalMin : Dict ℤ K

/-- What an RRSP knows about the world. `income y` is `contributor.gross_income_history[y]`. -/
structure RrspEnv (K : Type) where
  const : RrspConst K
  adj : Adjust K
  ownerAge : ℤ → Except PyErr ℤ
  contributorAge : ℤ → Except PyErr ℤ
  income : ℤ → Except PyErr K

/-- `extend_inflation_adjusted` for a table of numbers (utility/inflation.py:46-110). -/
def extendScalar (vals : Dict ℤ K) (adj : Adjust K) (target : ℤ) : Except PyErr K :=
  match Dict.get? vals target with
  | some v => .ok v
  | none =>
    match nearestYear vals target with
    | none => .error .keyError
    | some base =>
      if base ≠ target then do
        let v ← look vals base
        let c ← adj target base
        .ok (v * c)
      else .error .valueError

/-- `RRSP.next_contribution_room` (rrsp.py:176-221). -/
def rrspNext (e : RrspEnv K) (g : Grp K) (r : Reg K) : Except PyErr K := do
  let age ← e.contributorAge (r.acct.year + 1)
  if e.const.conversionAge < age then .ok 0
  else do
    let income ← e.income r.acct.year
    let most ← extendScalar e.const.accrualMax e.adj (r.acct.year + 1)
    .ok (min (income * e.const.rate) most + (contributionRoom g r - inflows r.acct none))

/-- `_rrif_max_conversion_year` (rrsp.py:64-70). -/
def maxConversionYear (e : RrspEnv K) (initialYear : ℤ) : Except PyErr ℤ := do
  let age ← e.ownerAge initialYear
  .ok (initialYear + e.const.conversionAge - age)

/-- The `rrif_conversion_year` getter (rrsp.py:72-82). -/
def conversionYear (e : RrspEnv K) (initialYear : ℤ) (stored : Option ℤ) : Except PyErr ℤ :=
  match stored with
  | some y => .ok y
  | none => maxConversionYear e initialYear

/-- The `rrif_conversion_year` setter for an integer or `None` (rrsp.py:84-114). -/
def setConversionYear (e : RrspEnv K) (initialYear : ℤ) (val : Option ℤ) :
    Except PyErr (Option ℤ) :=
  match val with
  | none => .ok none
  | some y => do
    let m ← maxConversionYear e initialYear
    if m < y then .error .valueError else .ok (some y)

/-- A sequence of assignments to `rrif_conversion_year` (`convert_to_rrif(year)` is one,
rrsp.py:116-119); rejected ones change nothing. -/
def setConversionYears (e : RrspEnv K) (initialYear : ℤ) (stored : Option ℤ)
    (vals : List (Option ℤ)) : Option ℤ :=
  vals.foldl (fun s v => match setConversionYear e initialYear v with
    | .ok s' => s' | .error _ => s) stored

/-- `minimum_distribution` (rrsp.py:231-255). -/
def minimumDistribution (e : RrspEnv K) (conversion : ℤ) (a : Acct K) : Except PyErr K :=
  if conversion < a.year then do
    let age ← e.contributorAge a.year
    let b ← Account.balance a
    match Dict.get? e.const.withdrawalMin age with
    | some f => .ok (f * b)
    | none =>
      match (Dict.keys e.const.withdrawalMin).max?, (Dict.vals e.const.withdrawalMin).max? with
      | some top, some f =>
        if top < age then .ok (b * f)
        else if (90 - age : ℤ) = 0 then .error .zeroDivisionError else .ok (b / ((90 - age : ℤ) : K))
      | _, _ => .error .valueError
  else .ok 0

/-- `min_outflow_limit` (rrsp.py:223-229); `shared` is `super().min_outflow_limit`. -/
def minOutflowLimit (e : RrspEnv K) (conversion : ℤ) (a : Acct K) (shared : K) : Except PyErr K := do
  let m ← minimumDistribution e conversion a
  .ok (min (-m) shared)

/-- `taxable_income` (rrsp.py:121-132). -/
def rrspTaxableIncome (a : Acct K) : K := -outflows a none

/-- `tax_deduction` (rrsp.py:168-174). -/
def rrspTaxDeduction (a : Acct K) : K := inflows a none

/-- The bracket and rate lookup of `tax_withheld` (rrsp.py:151-166) on a taxable income. -/
def withhold (e : RrspEnv K) (year : ℤ) (income : K) : Except PyErr K :=
  match nearestYear e.const.withholding year with
  | none => .error .keyError
  | some y => do
    let rates ← look e.const.withholding y
    let f ← e.adj y year
    match ((Dict.keys rates).filter fun b => decide (b < income * f)).max?,
        (Dict.keys rates).min? with
    | some b, _ => do let r ← look rates b; .ok (income * r)
    | none, some b => do let r ← look rates b; .ok (income * r)
    | none, none => .error .valueError

/-- `tax_withheld` (rrsp.py:134-166). After the conversion `min_outflow_limit`, a number that is not
positive, is *subtracted*. (`default=min(tax_rates.keys())` is evaluated even if not needed; it
raises only for an empty table, where the other branch is empty too.) -/
def taxWithheld (e : RrspEnv K) (conversion : ℤ) (a : Acct K) (shared : K) : Except PyErr K :=
  if a.year < conversion then withhold e a.year (rrspTaxableIncome a)
  else do
    let m ← minOutflowLimit e conversion a shared
    withhold e a.year (rrspTaxableIncome a - m)

end RRSP

end Forecaster.Registered
