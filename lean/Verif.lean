import Verif.Props.Timing
import Verif.Props.Inflation
import Verif.Props.Ledger
import Verif.Props.Accum
import Verif.Props.Account
import Verif.Props.Link
import Verif.Props.Tax
import Verif.Props.TaxHistory
import Verif.Props.TaxPeople
import Verif.Props.Taxable
import Verif.Props.Person
import Verif.Props.Registered
import Verif.Props.Allocation
import Verif.Props.Expenses
import Verif.Props.Precision
import Verif.Props.Reader
import Verif.Props.SubForecast
import Verif.Props.SubForecastAccount
import Verif.Props.Forecast
import Verif.Props.CashFlow
import Verif.Props.Traversal
import Verif.Props.TraversalAccount
import Verif.Props.TraversalOrder
import Verif.Props.TraversalTree
import Verif.Props.TraversalSplit
import Verif.Props.TraversalNested
import Verif.Model.TxStrategy
import Verif.Props.TxStrategy
import Verif.Props.TxStrategyFill
import Verif.Model.Builder
import Verif.Props.Builder
import Verif.Model.Defaults
import Verif.Props.Defaults
import Verif.Model.Shipped
import Verif.Props.Shipped
import Verif.Props.ShippedDefaults
import Verif.Props.LinkOut
import Verif.Model.Household
import Verif.Lemmas.Household
import Verif.Props.Household
import Verif.Model.Copying
import Verif.Props.Copying
import Verif.Model.Recorded
import Verif.Lemmas.Recorded
import Verif.Props.Recorded
import Verif.Model.RecordedHousehold
import Verif.Lemmas.RecordedHousehold
import Verif.Props.RecordedHousehold
import Verif.Props.RecordedAccount
import Verif.Props.RecordedYear
import Verif.Model.Owners
import Verif.Props.Owners
import Verif.Model.Mapping
import Verif.Props.Mapping
import Verif.Model.TxDict
import Verif.Props.TxDict
import Verif.Lemmas.RecordedClose
import Verif.Model.RecordedForecast
import Verif.Lemmas.RecordedForecast
import Verif.Props.RecordedForecast
import Verif.Lemmas.TraversalExists
import Verif.Lemmas.TraversalTotal
import Verif.Lemmas.TraversalFuel
import Verif.Props.TraversalTotal
import Verif.Props.Errors
import Verif.Props.TxStrategyTotal
import Verif.Props.Decorated
import Verif.Props.Discovery
import Verif.Model.Node
import Verif.Props.Node
import Verif.Lemmas.OnTime
import Verif.Lemmas.Solvency
import Verif.Props.Solvency
import Verif.Props.SolvencyStrategy
import Verif.Lemmas.Answers
import Verif.Props.Completes
import Verif.Props.CompletesStrategy
import Verif.Props.Longer
import Verif.Props.Paydays
import Verif.Props.BracketCreep
import Verif.Props.Opening
import Verif.Props.Planning
import Verif.Props.Saving
import Verif.Props.LifetimeRoom
import Verif.Model.TaxMulti
import Verif.Props.TaxMulti
import Verif.Props.Repayment
import Verif.Model.Profile
import Verif.Props.Profile
import Verif.Model.Storage
import Verif.Props.Storage
import Verif.Model.DebtPayment
import Verif.Props.DebtPayment
import Verif.Props.Reorder
import Verif.Props.LinkedLifetime
import Verif.Props.Contributions
import Verif.Props.Units
import Verif.Props.UnitsTax
import Verif.Lemmas.Calendar
import Verif.Props.Calendar
import Verif.Lemmas.CalendarTax
import Verif.Props.CalendarTax
import Verif.Props.TimingZero
import Verif.Model.LinkValue
import Verif.Props.LinkValue
import Verif.Model.Family
import Verif.Props.Family
import Verif.Props.HouseholdStrategy
import Verif.Props.FamilyStrategy
import Verif.Model.FamilyKinds
import Verif.Props.CapitalGain
import Verif.Props.FamilyKinds
import Verif.Model.FamilyCanada
import Verif.Props.FamilyCanada
import Verif.Props.FamilyAddresses
import Verif.Model.PersonOrder
import Verif.Props.PersonOrder
import Verif.Props.Compounding
import Verif.Props.UnitsRegistered
import Verif.Props.UnitsDebts
import Verif.Props.NetAmounts
import Verif.Props.NetTaxable
