import Verif.Model.Registered

/-!
# Linked registered accounts in a forecast

What a forecast does with a group of registered accounts from year to year: transactions, then the
loop of `Forecast.next_year` over its set of accounts.

Not modelled here: accounts outside the group (the loop does nothing to the group while it is at
them), and who decides on the transactions.
-/

namespace Forecaster.Registered

open Forecaster Forecaster.Timing Forecaster.Account

variable {K : Type} [Field K] [LinearOrder K] [IsStrictOrderedRing K]

/-- `for account in accounts: while account.this_year < self.this_year: account.next_year()`
(forecast/base.py:210-212); `order` is the order in which the accounts of the group (given by their
numbers) come up, `y` the forecast's new year. -/
def openYear (next : Grp K → Reg K → Except PyErr K) (fuel : ℕ) (y : ℤ) (order : List ℕ) (g : Grp K) :
    Except PyErr (Grp K) :=
  order.foldlM (fun g j => catchUp (nextYear next fuel) y j (behind y g j) g) g

/-- One year: the transactions made (account number, value, date), and the order in which the set of
accounts is iterated over at the end. -/
structure Year (K : Type) where
  adds : List (ℕ × K × When K)
  order : List ℕ

/-- The transactions of a year are made (forecast/subforecast.py:326-370 ends in writing them to the
account, accounts/base.py:346-368), and the next year is opened (forecast/base.py:191-212). -/
def forecastYear (next : Grp K → Reg K → Except PyErr K) (fuel : ℕ) (y : ℤ) (g : Grp K) (h : Year K) :
    Except PyErr (Grp K) := do
  let g ← h.adds.foldlM (fun g a => addTo g a.1 a.2.1 a.2.2) g
  openYear next fuel (y + 1) h.order g

/-- Several years, the first being `y` (forecast/base.py:165-168). -/
def forecastYears (next : Grp K → Reg K → Except PyErr K) (fuel : ℕ) : ℤ → Grp K → List (Year K) →
    Except PyErr (Grp K)
  | _, g, [] => .ok g
  | y, g, h :: hs => do
    let g ← forecastYear next fuel y g h
    forecastYears next fuel (y + 1) g hs

/-- A group of new registered accounts without `inputs` (registered_account.py:15-94). -/
def newGroup (accts : List (Acct K)) (room : K) (contribYear : ℤ) : Grp K :=
  { accts := accts.map fun a => ⟨a, [], []⟩
    room := room
    contribYear := contribYear }

end Forecaster.Registered
