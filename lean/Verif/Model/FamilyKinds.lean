import Verif.Model.Family
import Verif.Model.Registered
import Verif.Model.Taxable

/-!
# The accounts of a family: RRSPs, TFSAs, taxable accounts and residences

What a `forecaster.canada` account answers when the tax forecast asks (`Family.Holding`). Limits on
transactions are whatever they are: C34 and C35 are about them. What a `TaxableAccount` answers is worked
out here from the account's own history (`Taxable.gainOf`), not from recorded properties; that this is
the same is `C122_capital_gain`.
-/

namespace Forecaster.Taxable

open Forecaster Forecaster.Account

variable {K : Type} [Field K] [LinearOrder K] [IsStrictOrderedRing K]

/-- An account as it was in a past year (ledger/recorded_property.py:154-157). -/
def asOf (a : Acct K) (y : ℤ) : Acct K :=
  { a with
    year := y
    txns := (Dict.get? a.txHist y).getD [] }

/-- `acb` at the beginning of the `k`-th year (taxable_account.py:62-110). -/
def costBase (y0 : ℤ) (c0 : K) (a : Acct K) : ℕ → Except PyErr K
  | 0 => .ok c0
  | k + 1 => do
    let c ← costBase y0 c0 a k
    let r ← computeGain (asOf a (y0 + k)) c
    .ok r.1

/-- `capital_gain` (taxable_account.py:74-110) of an account opened in `y0` with cost base `c0`. -/
def gainOf (y0 : ℤ) (c0 : K) (a : Acct K) : Except PyErr K := do
  let c ← costBase y0 c0 a (a.year - y0).toNat
  let r ← computeGain a c
  .ok r.2

end Forecaster.Taxable

namespace Forecaster.Family

open Forecaster Forecaster.Account

variable {K : Type} [Field K] [LinearOrder K] [IsStrictOrderedRing K]

/-- `RRSP` (canada/accounts/rrsp.py:121-174): `taxable_income`, `tax_deduction` and `tax_withheld`;
`shared` is `super().min_outflow_limit`. Tax withheld that cannot be worked out counts as 0 (the forecast
would raise). -/
def rrspHolding (owner : ℕ) (limits : Acct K → Limits K) (e : Registered.RrspEnv K) (conversion : ℤ)
    (shared : Acct K → K) : Holding K :=
  { owner
    limits
    taxableIncome := fun a => .ok (Registered.rrspTaxableIncome a)
    deduction := fun a => .ok (Registered.rrspTaxDeduction a)
    credit := fun _ => .ok 0
    withheld := fun a => match Registered.taxWithheld e conversion a (shared a) with
      | .ok v => v
      | .error _ => 0 }

/-- `TFSA` (canada/accounts/tfsa.py:131-134; ledger/base.py:158-183). -/
def tfsaHolding (owner : ℕ) (limits : Acct K → Limits K) : Holding K :=
  { owner
    limits
    taxableIncome := fun _ => .ok 0
    deduction := fun _ => .ok 0
    credit := fun _ => .ok 0
    withheld := fun _ => 0 }

/-- `TaxableAccount` (canada/accounts/taxable_account.py:74-137; accounts/base.py:408-455), opened in `y0`
with cost base `c0`. -/
def taxableHolding (owner : ℕ) (y0 : ℤ) (c0 : K) : Holding K :=
  { owner
    limits := fun _ => plainLimits
    taxableIncome := fun a => do let g ← Taxable.gainOf y0 c0 a; .ok (g / 2)
    deduction := fun _ => .ok 0
    credit := fun _ => .ok 0
    withheld := fun _ => 0 }

/-- `PrincipleResidence` (canada/accounts/principle_residence.py:9-12; accounts/base.py:408-455). -/
def residenceHolding (owner : ℕ) : Holding K :=
  { owner
    limits := fun _ => plainLimits
    taxableIncome := fun a => .ok (Taxable.residenceTaxableIncome a)
    deduction := fun _ => .ok 0
    credit := fun _ => .ok 0
    withheld := fun _ => 0 }

end Forecaster.Family
