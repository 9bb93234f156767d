import Verif.Model.Account

/-!
# `forecaster/canada/accounts/taxable_account.py` and `principle_residence.py`

Not modelled: `inputs` overriding `acb` or `capital_gain`, and reassigning `acb` after
construction. An operation that raises leaves the account unchanged here; in Python a failing
`next_year()` may already have recorded some properties of the year.
-/

namespace Forecaster.Taxable

open Forecaster Forecaster.Timing Forecaster.Account

variable {K : Type} [Field K] [LinearOrder K] [IsStrictOrderedRing K]

/-- A `TaxableAccount` (taxable_account.py:7-59): an account with the histories of the two
cached recorded properties `acb` and `capital_gain`. -/
structure TA (K : Type) where
  acct : Acct K
  acbHist : Dict ℤ K
  gainHist : Dict ℤ K

/-- `TaxableAccount.__init__` (taxable_account.py:35-59): `acb=None` means the balance. -/
def init (year : ℤ) (balance : K) (growth : ℤ → K → K) (dt : Dict K K) (acb : Option K) : TA K :=
  { acct := Account.init year balance growth dt
    acbHist := [(year, acb.getD balance)]
    gainHist := [] }

/-- `TaxableAccount.acb` (taxable_account.py:64-72). -/
def acb (a : TA K) : Except PyErr K := look a.acbHist a.acct.year

/-- The loop body of `capital_gain` (taxable_account.py:92-106) on `(acb, capital_gain)`. -/
def gainStep (a : Acct K) (s : K × K) (when : K) : Except PyErr (K × K) :=
  let value := Dict.val a.txns when
  if value ≥ 0 then .ok (s.1 + value, s.2)
  else do
    let b ← balanceAtTime a (.num when) none
    let bal := b - value
    if bal = 0 then .error .zeroDivisionError
    else .ok (s.1 * (1 - (-value / bal)), s.2 + -value * (1 - s.1 / bal))

/-- The value of `(acb for next year, capital_gain)` (taxable_account.py:83-109), uncached. -/
def computeGain (a : Acct K) (acb : K) : Except PyErr (K × K) :=
  ((Dict.keys a.txns).insertionSort (· ≤ ·)).foldlM (gainStep a) (acb, 0)

/-- `TaxableAccount.capital_gain` (taxable_account.py:74-110) with its caching
(recorded_property.py:59-65, 152-157). -/
def capitalGain (a : TA K) : Except PyErr (K × TA K) :=
  match Dict.get? a.gainHist a.acct.year with
  | some g => .ok (g, a)
  | none => do
    let c ← acb a
    let r ← computeGain a.acct c
    .ok (r.2, { a with
      acbHist := Dict.set a.acbHist (a.acct.year + 1) r.1
      gainHist := Dict.set a.gainHist a.acct.year r.2 })

/-- Forget the cached gain and next year's cost base (taxable_account.py:119-120). -/
def invalidate (a : TA K) : TA K :=
  { a with
    gainHist := Dict.del a.gainHist a.acct.year
    acbHist := Dict.del a.acbHist (a.acct.year + 1) }

/-- `TaxableAccount.add_transaction` (taxable_account.py:112-120). -/
def addTransaction (a : TA K) (value : K) (when : When K) : Except PyErr (TA K) := do
  let acct ← Account.addTransaction a.acct value when
  .ok (invalidate { a with acct := acct })

/-- `Account.__setitem__` (accounts/base.py:858-861), which calls the overriding
`add_transaction`. -/
def setItem (a : TA K) (key : When K) (value : K) : Except PyErr (TA K) := do
  let acct ← Account.setItem a.acct key value
  .ok (invalidate { a with acct := acct })

/-- `Account.__delitem__` (accounts/base.py:863-864): inherited, so nothing is invalidated. -/
def delItem (a : TA K) (key : When K) : Except PyErr (TA K) := do
  let acct ← Account.delItem a.acct key
  .ok { a with acct := acct }

/-- `Account.clear` (accounts/base.py:882-884): inherited, so nothing is invalidated. -/
def clear (a : TA K) : TA K := { a with acct := Account.clear a.acct }

/-- `TaxableAccount.taxable_income` (taxable_account.py:122-137). -/
def taxableIncome (a : TA K) : Except PyErr (K × TA K) := do
  let r ← capitalGain a
  .ok (r.1 / 2, r.2)

/-- `PrincipleResidence.taxable_income` (principle_residence.py:9-12). -/
def residenceTaxableIncome (_ : Acct K) : K := 0

/-- `next_year` (ledger/base.py:94-111, accounts/base.py:388-406): every recorded property,
among them `acb` and `capital_gain`, is recorded before the year advances. -/
def nextYear (a : TA K) : Except PyErr (TA K) := do
  let r ← capitalGain a
  let _ ← acb r.2
  let acct ← Account.nextYear r.2.acct
  .ok { r.2 with acct := acct }

/-- What a program does with a taxable account: record transactions, read the gain, go on to
next year. -/
inductive Op (K : Type)
  | add (value : K) (when : When K)
  | setItem (key : When K) (value : K)
  | readGain
  | nextYear

/-- Effect of one operation. -/
def step (a : TA K) : Op K → Except PyErr (TA K)
  | .add v w => addTransaction a v w
  | .setItem k v => setItem a k v
  | .readGain => do let r ← capitalGain a; .ok r.2
  | .nextYear => nextYear a

/-- Effect of a program; operations that raise change nothing. -/
def run (a : TA K) (ops : List (Op K)) : TA K :=
  ops.foldl (fun a op => match step a op with | .ok a' => a' | .error _ => a) a

end Forecaster.Taxable
