import Verif.Model.TxStrategy

/-!
# The shipped defaults for transaction strategies

`forecaster/settings.py`, `canada/settings.py` and the account classes.
-/

namespace Forecaster.Defaults

open Forecaster Forecaster.TxStrategy

variable {K : Type} [Field K] [LinearOrder K] [IsStrictOrderedRing K]

/-- The account classes (accounts/base.py:13, accounts/linked_limit.py:8, accounts/debt.py:5,
canada/accounts/*.py:6-12). -/
inductive Cls
  | account | linkedLimit | debt | registered | rrsp | tfsa | taxable | residence
  deriving DecidableEq

/-- The names after `Account` in every `__mro__`: accounts/base.py:13, ledger/base.py:41, 120. -/
def baseNames : List String := ["TaxSource", "Ledger", "HighPrecisionOptional", "object"]

/-- The names of `type(account).__mro__` (all classes have one base only). -/
def Cls.mro : Cls → List String
  | .account => "Account" :: baseNames
  | .linkedLimit => "LinkedLimitAccount" :: "Account" :: baseNames
  | .debt => "Debt" :: "Account" :: baseNames
  | .registered => "RegisteredAccount" :: "LinkedLimitAccount" :: "Account" :: baseNames
  | .rrsp => "RRSP" :: "RegisteredAccount" :: "LinkedLimitAccount" :: "Account" :: baseNames
  | .tfsa => "TFSA" :: "RegisteredAccount" :: "LinkedLimitAccount" :: "Account" :: baseNames
  | .taxable => "TaxableAccount" :: "Account" :: baseNames
  | .residence => "PrincipleResidence" :: "Account" :: baseNames

/-- `Settings.saving_weights` (settings.py:151). -/
def savingWeights : Dict String K := [("Account", 1)]

/-- `Settings.withdrawal_weights` (settings.py:155). -/
def withdrawalWeights : Dict String K := [("Account", 1)]

/-- `SettingsCanada.saving_weights` (canada/settings.py:47-50). -/
def savingWeightsCanada : Dict String K := [("RRSP", 2), ("TFSA", 1), ("TaxableAccount", 3)]

/-- `SettingsCanada.withdrawal_weights` (canada/settings.py:51-54). -/
def withdrawalWeightsCanada : Dict String K := [("RRSP", 1), ("TFSA", 2), ("SavingsAccount", 3)]

/-- The strategy that a `Forecaster` builds from these settings (settings.py:150, 154,
forecaster.py:59-64): `TransactionStrategy("Ordered", weights)`. -/
def strategy (weights : Dict String K) : Except PyErr (Strat K) :=
  TxStrategy.init (.str "Ordered") weights none none

end Forecaster.Defaults
