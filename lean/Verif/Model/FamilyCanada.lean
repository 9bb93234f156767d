import Verif.Model.Family

/-!
# A family that pays Canadian taxes

`Verif/Model/Family.lean` with the tax object of `forecaster/canada/tax.py` instead of that of
`forecaster/tax.py`: two jurisdictions, whose credits look at the spouse and at what is taken out of RRSPs.

Simplified, beyond what is said there: spouses are looked up among the members of the family, whom the
forecast is given; one who is none of them counts as no spouse.
-/

namespace Forecaster.Family

open Forecaster Forecaster.Account

variable {K : Type} [Field K] [LinearOrder K] [IsStrictOrderedRing K]

/-- A `TaxCanadaJurisdiction` (canada/tax.py:13-34): the tables of `Tax`, and those that are read from
`constants` directly (canada/tax.py:83-86, 116-119). -/
structure Law (K : Type) where
  tax : Tax.Tax K
  pensionCap : Dict ℤ K
  spousalAmount : Dict ℤ K

/-- A `TaxCanada` (canada/tax.py:162-185), together with the accounts that are `RRSP`s
(canada/tax.py:76-78) and the order of the people's memory addresses (canada/tax.py:139). -/
structure Canada (K : Type) where
  federal : Law K
  provincial : Law K
  rrsp : ℕ → Bool
  idLt : ℕ → ℕ → Bool

/-- What a jurisdiction sees of the family (canada/tax.py:64-149): `people` are its members as the tax
code sees them. -/
def sight (F : Family K) (C : Canada K) (L : Law K) (y : ℤ) (acc : ℕ → Acct K)
    (people : List (Tax.Payer K)) : Tax.CanEnv K where
  pensionCap := L.pensionCap
  spousalAmount := L.spousalAmount
  rrspOutflows i := ((owned F i).filter C.rrsp).map fun a => outflows (acc a) none
  payer i := people[i]?
  income i := ((people[i]?).bind fun p => p.taxableIncome y).getD 0
  idLt := C.idLt

/-- `TaxForecast.tax_owing` (forecast/tax.py:57-60) with a `TaxCanada` (canada/tax.py:187-250). -/
def canadaOwing (F : Family K) (C : Canada K) (y : ℤ) (acc : ℕ → Acct K) : Except PyErr K := do
  let people ← (List.range F.size).mapM (payer F y acc)
  let jur := fun L : Law K => Tax.canadaJur (sight F C L y acc people) L.tax
  let r ← (Tax.canadaCall (jur C.federal) (jur C.provincial) (.people people) y
    none none none none none none).1
  .ok r.1

/-- The household of `ForecasterCanada` (canada/forecaster.py; forecaster/forecaster.py:204-284). -/
def canadaHousehold (F : Family K) (C : Canada K) : Household.Env ℕ ℕ K :=
  { household F with owing := canadaOwing F C }

end Forecaster.Family
