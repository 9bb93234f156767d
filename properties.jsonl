{"id": "C01", "title": "Timing(when, frequency) is a uniform partition of the year", "statement": "Timing(when, frequency) with when in [0,1] and frequency n>=1 yields exactly n distinct timings, the i-th one at (i+when)/n, i.e. inside the i-th of n equal sub-periods of [0,1]; each weight is 1/n and the weights sum to 1. frequency=0 or a continuous frequency raises instead of yielding a dict.", "quantifier": "every numeric when in [0,1] and every positive integer frequency", "why_tests_cant": "The sum/distinctness claim is over unboundedly many (when, frequency) pairs; tests sample frequency 1, 2, 4, 12.", "anchors": ["forecaster/utility/timing.py:Timing.__init__"]}
{"id": "C02", "title": "Timing built from a dict only ever has usable (non-negative) weights on the given timings", "statement": "For any dict d of {timing: amount}: Timing(d) has non-negative weights and its timings are timings of d. If all amounts are >=0 and not all 0 the weights are d itself; if all are <=0 they are the negated amounts; if all are zero (and d nonempty) every timing gets weight 1; if amounts are mixed the result has strictly positive weights, and it is empty exactly when the amounts sum to zero.", "quantifier": "every dict of timing to amount, any size, any signs, any insertion order", "why_tests_cant": "Case split over sign patterns of unboundedly long series.", "anchors": ["forecaster/utility/timing.py:_convert_dict", "forecaster/utility/timing.py:Timing.__init__"]}
{"id": "C03", "title": "Net-inflow series: Timing withdraws everything, as early as possible, and never overdraws", "statement": "If a series of inflows/outflows has mixed signs and a positive total, the weights of Timing(series) sum to exactly the total; at every time t>= the first timing, withdrawing the weights so far never makes the running balance at t or at any later time lower than min(0, that balance without withdrawals); and every other schedule of non-negative withdrawals with this no-overdraft property has withdrawn at most as much by every point in time.", "quantifier": "every mixed-sign series with positive sum and every competing withdrawal schedule", "why_tests_cant": "Optimality ranges over all competing schedules and all series.", "anchors": ["forecaster/utility/timing.py:_accum_inflows"]}
{"id": "C04", "title": "Net-outflow series: Timing contributes the least that avoids a negative running balance", "statement": "If a series has mixed signs and a negative total, adding the weights of Timing(series) makes the running balance >= 0 at every time; every other schedule of non-negative contributions with that property has contributed at least as much by every point in time; and the weights sum to at least minus the total.", "quantifier": "every mixed-sign series with negative sum and every competing contribution schedule", "why_tests_cant": "Optimality ranges over all competing schedules and all series.", "anchors": ["forecaster/utility/timing.py:_accum_outflows"]}
{"id": "C05", "title": "Splitting an amount over a Timing conserves the amount and the proportions", "statement": "For a Timing whose weights do not sum to zero (every Timing made from numbers, or from a dict that is not empty and not perfectly balanced), timing.time_series(x) and transactions_from_timing(timing, x) return one entry per timing, their values sum to exactly x and each value equals x times the timing's share of the total weight. (Shown false without the condition: over the empty Timing made from a perfectly balanced dict, x silently disappears.)", "quantifier": "every Timing, every scalar", "why_tests_cant": "Conservation for every weight vector of any length.", "anchors": ["forecaster/utility/timing.py:Timing.time_series", "forecaster/utility/timing.py:Timing._normalized", "forecaster/utility/timing.py:transactions_from_timing"]}
{"id": "C06", "title": "normalized() preserves proportions, sums to 1 and is idempotent", "statement": "timing.normalized() has the same timings in the same proportions, its weights sum to 1, and normalizing again changes nothing; normalized(keys) does the same for the sub-series selected by keys and raises KeyError iff a key is missing.", "quantifier": "every Timing with non-negative weights of positive sum, every subset of keys", "why_tests_cant": "Universally quantified algebraic law.", "anchors": ["forecaster/utility/timing.py:Timing.normalized"]}
{"id": "C07", "title": "add_transactions/subtract_transactions act pointwise and are inverse", "statement": "add_transactions(a,b) contains exactly the timings of a and of b, and at each timing the sum of both amounts (missing = 0); subtract_transactions(a,b) the difference; the totals add/subtract accordingly; addition is commutative and associative as time series, and subtracting b after adding b gives back a's amounts at every timing. The inputs are unchanged.", "quantifier": "all pairs/triples of transaction dicts", "why_tests_cant": "Law over all dicts of any size and overlap.", "anchors": ["forecaster/utility/timing.py:add_transactions", "forecaster/utility/timing.py:subtract_transactions"]}
{"id": "C08", "title": "when_conv accepts exactly 'start', 'end' and numbers in [0,1]", "statement": "when_conv maps 'start' to 0 and 'end' to 1, returns a number in [0,1] unchanged, and raises ValueError for any number outside [0,1]; its result is always in [0,1] and it is idempotent. frequency_conv maps the documented letters to the documented counts, leaves positive integers alone, and rejects everything else.", "quantifier": "every when / frequency argument", "why_tests_cant": "Quantifies over all numbers and strings.", "anchors": ["forecaster/utility/timing.py:when_conv", "forecaster/utility/timing.py:frequency_conv"]}
{"id": "C09", "title": "nearest_year returns the closest earlier year, or the earliest one if none is earlier", "statement": "nearest_year(vals, year) returns year itself when present; otherwise the greatest key below year if there is one; otherwise the least key; and returns None iff vals is empty.", "quantifier": "every dict of years and every year", "why_tests_cant": "All finite key sets.", "anchors": ["forecaster/utility/inflation.py:nearest_year"]}
{"id": "C10", "title": "Inflation adjustments compose", "statement": "For the inflation-adjust function built by build_inflation_adjust from any None/dict/callable input with nonzero factors: adjusting from a year to itself is 1, adjusting a->b->c equals a->c, and a->b and b->a are reciprocal; and extend_inflation_adjusted fills a missing year with the nearest year's values scaled by the adjustment from that year to the missing year.", "quantifier": "all inflation tables and all triples of years", "why_tests_cant": "Group law over all years.", "anchors": ["forecaster/utility/inflation.py:build_inflation_adjust", "forecaster/utility/inflation.py:extend_inflation_adjusted"]}
{"id": "C11", "title": "Scenario.accumulation_function composes and Scenario covers exactly its years", "statement": "A Scenario with num_years >= 1 iterates over exactly initial_year..initial_year+num_years-1 (num_years < 1 is rejected); a rate given as a list of n values is defined for exactly the n years from initial_year, a scalar rate for every year, a dict for its keys, and any other year raises; scenario.inflation_adjust(a,b) is 1 for a=b, a->b->c equals a->c, and the reverse is the reciprocal (rates > -1). (Scenario.inflation_adjustments is the inverse of what its documentation says: shown with a witness.)", "quantifier": "every rate series, any number of years, all year triples", "why_tests_cant": "Product telescoping over arbitrary spans.", "anchors": ["forecaster/scenario.py:Scenario"]}
{"id": "C12", "title": "Ledger history is gap-free", "statement": "After any sequence of next_year/set/delete/read operations, a recorded property's history has an entry for every year from initial_year up to and including this_year, and only for those years and the years supplied as inputs.", "quantifier": "every ledger program (sequence of operations) and any number of years", "why_tests_cant": "Invariant over all histories.", "anchors": ["forecaster/ledger/base.py:Ledger.next_year", "forecaster/ledger/recorded_property.py:recorded_property"]}
{"id": "C13", "title": "User inputs are never overwritten by the model", "statement": "Once a value for year y was supplied via inputs, reading the property when this_year = y returns that value whatever assignments, deletions or recomputations happened before or happen in that year; other years are unaffected by the input.", "quantifier": "every sequence of operations, every input table", "why_tests_cant": "Invariant over all histories.", "anchors": ["forecaster/ledger/recorded_property.py:recorded_property.__get__", "forecaster/ledger/recorded_property.py:recorded_property.__set__"]}
{"id": "C14", "title": "The past of a ledger is immutable", "statement": "Once next_year() has advanced past year y, the recorded value of each property for year y stays the same under every later sequence of reads, assignments, deletions and next_year calls.", "quantifier": "every later sequence of operations", "why_tests_cant": "Invariant over all histories.", "anchors": ["forecaster/ledger/base.py:Ledger.next_year", "forecaster/ledger/recorded_property.py:recorded_property"]}
{"id": "C15", "title": "Cached recorded properties are stable within a year and recomputed in the next", "statement": "Between two advances of the ledger (and absent clear_cache, assignment or deletion), every read of a cached property gives the same value and its getter runs at most once; after next_year the stale value is never returned for the new year.", "quantifier": "every interleaving of reads with changes of the underlying state", "why_tests_cant": "Invariant over histories.", "anchors": ["forecaster/ledger/recorded_property.py:recorded_property_cached", "forecaster/ledger/base.py:Ledger.clear_cache"]}
{"id": "C16", "title": "The accumulation function is an exponential law", "statement": "accumulation_function(t, rate, nper): equals 1 at t=0, is positive, satisfies A(s+t)=A(s)A(t), is increasing in t for positive rates, decreasing for negative ones, increasing in the rate for t>0, for both discrete and continuous compounding.", "quantifier": "all rates (> -n for discrete), frequencies and times", "why_tests_cant": "Real-analysis identity on a continuum.", "anchors": ["forecaster/accounts/util.py:accumulation_function"]}
{"id": "C17", "title": "value_at_time and time_to_value are mutually inverse", "statement": "time_to_value(v, value_at_time(v, ...t...)) = t and value_at_time(v, ..., time_to_value(v, w, ...)) = w whenever rate is nonzero and the values have the same sign.", "quantifier": "all balances, rates, compounding frequencies, times", "why_tests_cant": "Continuum of inputs.", "anchors": ["forecaster/accounts/util.py:value_at_time", "forecaster/accounts/util.py:time_to_value", "forecaster/accounts/util.py:inverse_accumulation_function"]}
{"id": "C18", "title": "balance_at_time is the sum of the grown opening balance and grown transactions up to that time", "statement": "balance_at_time(t) depends only on the opening balance and on transactions dated <= t; it is additive in the balance and in the transactions; growing further between transaction dates multiplies by the accumulation function; and balance + returns + net transactions = balance_at_time('end').", "quantifier": "all transaction schedules, rates and times", "why_tests_cant": "All schedules of any length.", "anchors": ["forecaster/accounts/base.py:Account.balance_at_time", "forecaster/accounts/base.py:Account.returns"]}
{"id": "C19", "title": "Next year's opening balance is this year's closing balance", "statement": "After next_year() the balance is last year's opening balance grown over the year plus last year's transactions grown to the end of the year, both at the new year's rate; if that equals the old one, this is what balance_at_time('end') reported just before. Without transactions, the balance after n years is the compound growth. (Shown false: that it is so when the rate changes.)", "quantifier": "every account history of any number of years with arbitrary transactions", "why_tests_cant": "Induction over unbounded histories.", "anchors": ["forecaster/accounts/base.py:Account.balance", "forecaster/accounts/base.py:Account.next_year"]}
{"id": "C20", "title": "Account transactions accumulate and are partitioned into inflows and outflows", "statement": "add_transaction(v, when) changes the account's total net transactions by exactly v, at exactly the timing when; inflows() >= 0, outflows() <= 0 and inflows()+outflows() is the net of all transactions added this year; next_year starts the new year with no transactions and keeps last year's in transactions_history.", "quantifier": "all sequences of add_transaction/next_year", "why_tests_cant": "All sequences.", "anchors": ["forecaster/accounts/base.py:Account.add_transaction", "forecaster/accounts/base.py:Account.inflows", "forecaster/accounts/base.py:Account.next_year"]}
{"id": "C21", "title": "transactions_to_balance hits the requested balance exactly", "statement": "Adding the transactions returned by transactions_to_balance(timing, balance) to the account makes balance_at_time('end') equal the requested balance, with transactions proportional to the timing weights, when no transaction limit binds; when a limit binds the total is exactly the limit and the signs are unchanged.", "quantifier": "all timings (weights), rates, opening balances, prior transactions, targets and limits", "why_tests_cant": "Continuum of inputs and unbounded schedules.", "anchors": ["forecaster/accounts/base.py:Account.transactions_to_balance"]}
{"id": "C22", "title": "Withdrawals reported by max_outflows never overdraw the account", "statement": "max_outflows(timing) is a schedule of non-positive amounts whose execution leaves balance_at_time('end') >= 0 (if it was >= 0) and whose total does not exceed max_outflow_limit less outflows already made; withdrawing is monotone in the limit.", "quantifier": "every account state, timing and limit", "why_tests_cant": "Safety over all states.", "anchors": ["forecaster/accounts/base.py:Account.max_outflows"]}
{"id": "C23", "title": "Contributions reported by max_inflows respect the contribution limits", "statement": "max_inflows(timing) is a schedule of non-negative amounts whose total plus inflows already made does not exceed max_inflow_limit; min_inflows and min_outflows analogously top up to their minimums and are zero once these are met; min flows never exceed max flows when the limits are consistent.", "quantifier": "every account state, timing and limits", "why_tests_cant": "Safety over all states.", "anchors": ["forecaster/accounts/base.py:Account.max_inflows", "forecaster/accounts/base.py:Account.min_inflows", "forecaster/accounts/base.py:Account.min_outflows"]}
{"id": "C24", "title": "Debt payments never overpay", "statement": "A Debt's balance is never positive at construction whatever sign is passed; max_inflows(timing) never brings the balance above zero, min_inflows never pays more than is owed, and payments are non-negative.", "quantifier": "every debt balance, rate, minimum payment and timing", "why_tests_cant": "Safety over all states.", "anchors": ["forecaster/accounts/debt.py:Debt"]}
{"id": "C25", "title": "Linked accounts share one limit record per (owner, token)", "statement": "For any sequence of link/unlink/assign operations, two accounts linked with equal (owner, token) always read the same data and see the same group; assignment through one is visible to all of its group and to no other group; unlinking removes exactly that account.", "quantifier": "every sequence of link operations on any number of accounts", "why_tests_cant": "Aliasing invariant over all histories.", "anchors": ["forecaster/accounts/link.py:AccountLink"]}
{"id": "C26", "title": "Contribution room shared by linked accounts is not exceeded", "statement": "If several linked accounts share a max inflow limit, then after contributing max_inflows to each in turn (any order, at any timings, any number of times), total contributions of the group do not exceed the limit (or what they were before), provided no date has both contributions and withdrawals in the group and the default contribution dates have no withdrawals. (Shown false without the proviso: offsetting transactions at the same timing are netted and re-open room.)", "quantifier": "all group sizes, contribution orders and states", "why_tests_cant": "All interleavings.", "anchors": ["forecaster/accounts/linked_limit.py:LinkedLimitAccount"]}
{"id": "C27", "title": "Which limit a limit setter of a linked account writes", "statement": "Assigning max_inflow_limit or min_inflow_limit on a linked account is read back by every account with an equal link and changes no limit under another link; without a link it raises AttributeError. Assigning max_outflow_limit (min_outflow_limit) on an account with separate links leaves the outflow limit as it was and overwrites the maximum (minimum) inflow limit instead - so it is false that it changes only the outflow limit.", "quantifier": "all limit assignments", "why_tests_cant": "Frame property over all states.", "anchors": ["forecaster/accounts/linked_limit.py:LinkedLimitAccount.max_outflow_limit"]}
{"id": "C28", "title": "Income tax is the bracket-wise integral of the marginal rates", "statement": "tax_money(income) for non-negative income equals the sum over brackets of rate * (portion of income inside the bracket); it is zero at zero income, non-decreasing (non-negative rates), continuous (Lipschitz with the top rate), convex for increasing rates, and never exceeds income when all rates are <= 1.", "quantifier": "every bracket table with any number of brackets, every income", "why_tests_cant": "All tables and a continuum of incomes.", "anchors": ["forecaster/tax.py:Tax.tax_money", "forecaster/tax.py:Tax.add_accum"]}
{"id": "C29", "title": "Marginal bracket lookup returns the bracket containing the income", "statement": "marginal_bracket(income) is the greatest bracket threshold strictly below income (or the lowest threshold if there is none); marginal_rate is that bracket's rate; and any change of income that stays between the marginal bracket and the next threshold changes the tax by exactly marginal_rate times the change.", "quantifier": "every table and income", "why_tests_cant": "All tables and incomes.", "anchors": ["forecaster/tax.py:Tax.marginal_bracket", "forecaster/tax.py:Tax.marginal_rate"]}
{"id": "C30", "title": "Tax tables for a year do not depend on the order of queries", "statement": "With an inflation adjustment given by a price index, tax_brackets(y), marginal brackets and rates, taxes, personal deductions and credit rates for any year are the same whatever years were queried (and cached) earlier: the thresholds of the nearest given year scaled by the index, rates unchanged. (False if accum(y) is queried first for a year without a given table: it caches a table with scaled rates; refuted with a witness.)", "quantifier": "every sequence of earlier queries", "why_tests_cant": "Cache-history independence.", "anchors": ["forecaster/tax.py:Tax.tax_brackets", "forecaster/utility/inflation.py:extend_inflation_adjusted"]}
{"id": "C31", "title": "Household tax is independent of the order of people and additive", "statement": "Tax on a set of people without spouses is the sum of the individual taxes and does not depend on the order of people; a couple is taxed once, via the couple rule.", "quantifier": "all sets/orders of people", "why_tests_cant": "All permutations.", "anchors": ["forecaster/tax.py:Tax.tax_people"]}
{"id": "C32", "title": "TaxMulti is the sum of its jurisdictions", "statement": "TaxMulti of several jurisdictions charges exactly the sum of the jurisdictions' taxes (each with its own deduction and credit), and its marginal rate is the rate at which that sum grows around the given income. (Shown false: combined tax_brackets report zero rates; tax_money without explicit deductions raises.)", "quantifier": "any list of jurisdictions", "why_tests_cant": "All lists.", "anchors": ["forecaster/tax.py:TaxMulti"]}
{"id": "C33", "title": "Canadian spousal and pension credits are bounded and not double-claimed", "statement": "The pension credit is the smaller of RRSP income and the cap; the spousal credit is non-negative, at most one of two spouses gets it, the one with the higher net income, and it decreases with the other's income; it does not exceed the spousal amount if the spouse's net income is not negative. (Without that proviso it can: shown with a witness.)", "quantifier": "all couples and incomes", "why_tests_cant": "All incomes.", "anchors": ["forecaster/canada/tax.py:TaxCanadaJurisdiction"]}
{"id": "C34", "title": "RRSP contribution room", "statement": "Advancing an RRSP makes next year's room this year's room less the contributions to the account plus the accrual: the smaller of the given share of this year's income and the (inflation-adjusted) maximum for next year; over any history of an unlinked account, room left + contributions = first room + accruals; the room does not become negative if contributions stay within it; past the conversion age it is 0; withdrawals are taxable, contributions deductible. (Shown false: for linked accounts contributions to the other accounts are forgotten; an early RRIF conversion does not stop the accrual.)", "quantifier": "all histories of incomes and contributions", "why_tests_cant": "Induction over years.", "anchors": ["forecaster/canada/accounts/rrsp.py:RRSP"]}
{"id": "C35", "title": "TFSA contribution room", "statement": "Advancing a TFSA makes next year's room this year's room - contributions + withdrawals (of the account advanced) + accrual; over any history of an unlinked account, room left + net contributions = first room + accruals; an accrual is a whole number >= 0 of rounding units (rounded half to even) and zero before eligibility; the inferred first room is the sum of the accruals since eligibility, or since the last year given in inputs; a contribution room given to the constructor is used as it is. (Shown false: contributions to linked accounts are forgotten; accrual starts a year early; accruals fall as prices rise; inputs for future years only make the constructor raise ValueError.)", "quantifier": "all histories", "why_tests_cant": "Induction over years.", "anchors": ["forecaster/canada/accounts/tfsa.py:TFSA"]}
{"id": "C36", "title": "Taxable account capital gains and adjusted cost base", "statement": "The capital gain of a taxable account in a year is the sum over its outflows of proceeds minus the share of the cost base sold; the cost base is never negative, grows by each contribution, shrinks pro rata with each withdrawal and is zero when the account is emptied; over the account's life, gains realised plus remaining unrealised gains equal total growth; the gain does not depend on the order in which transactions were entered; half of it is taxable. (Shown false after `del account[t]` or `clear()`: the cached gain is stale.)", "quantifier": "all sequences of transactions", "why_tests_cant": "Induction over transaction sequences.", "anchors": ["forecaster/canada/accounts/taxable_account.py:TaxableAccount"]}
{"id": "C37", "title": "Spouses are mutual", "statement": "After any sequence of spouse assignments on a set of people none of which chooses somebody married to a third person and none of which is rejected, a.spouse is b iff b.spouse is a. (Both provisos are needed: the new spouse's former spouse is not released, and a rejected assignment releases the old spouse on one side only; shown with witnesses.)", "quantifier": "all sequences of assignments", "why_tests_cant": "Aliasing invariant over histories.", "anchors": ["forecaster/person.py:Person.spouse"]}
{"id": "C38", "title": "Gross income and age", "statement": "age(date) is the number of whole years between birth and date, defined for every date except 29 February for people not born in a leap year, monotone in the date and one more a year later; age(year) is the age reached in that year (one less for people born on 29 February in common years); gross income grows each year by the raise rate until the year of retirement and is zero in every later year, whatever is read in whatever order; net income is gross income less the tax withheld on it. (raise_rate_callable = None breaks the person: shown.)", "quantifier": "all birth dates, dates and income histories", "why_tests_cant": "All dates and histories.", "anchors": ["forecaster/person.py:Person.age", "forecaster/person.py:Person.gross_income"]}
{"id": "C39", "title": "Asset allocation sums to one within bounds", "statement": "An allocation strategy accepts exactly the two known strategies with min_equity <= max_equity. Whatever it returns, for any age and retirement age: the shares sum to 1, stocks are within [min_equity, max_equity] (and no share is negative for limits within [0,1]), stocks are the closest allowed value to the strategy's formula, the share of stocks never increases with age, and the transition strategy starts at max_equity and ends at its target. Rebalancing down keeps the sum and the bonds:other ratio of any allocation. (Shown: it raises ZeroDivisionError exactly where the formula asks for 100% stocks and max_equity < 1; rebalancing up loses part of `other`.)", "quantifier": "all ages, retirement ages and parameters", "why_tests_cant": "Continuum of parameters.", "anchors": ["forecaster/strategy/allocation.py:AllocationStrategy"]}
{"id": "C40", "title": "Living expenses are never negative", "statement": "LivingExpensesStrategy and any nesting of schedules and minimums never return a negative value; constant contribution saves exactly the base amount (or all income); constant living expenses are constant in real terms; percentage strategies are the rate times the total and monotone in the rate; earnings-growth expenses lie between base and income; retirement strategies depend only on the retirement year's records and then follow inflation, counting joint accounts once; a schedule switches strictly after the retirement year and is never below its minimum.", "quantifier": "all people, incomes, retirement statuses and parameters", "why_tests_cant": "All inputs.", "anchors": ["forecaster/strategy/gross_transaction.py:LivingExpensesStrategy", "forecaster/strategy/gross_transaction.py:LivingExpensesStrategySchedule"]}
{"id": "C41", "title": "Debt priority strategies order all debts by interest rate / balance", "statement": "Avalanche returns every debt exactly once, highest rate first; snowball returns every debt exactly once, smallest amount owed first; equally ranked debts keep the given order; this determines the order uniquely.", "quantifier": "all sets of debts", "why_tests_cant": "All lists.", "anchors": ["forecaster/strategy/debt_payment/util.py"]}
{"id": "C42", "title": "Strategy transactions are within the accounts' limits and add up to the amount allocated", "statement": "A TransactionTraversal called with a total beyond its precision, whatever the priority tree, the accounts' limits and the (feasible) answers of the flow algorithm, gives transactions to accounts of the tree only, all with the sign of the total and together no more than it; no account gets more than its max_inflow(s)/max_outflow(s); accounts sharing a maximum get no more than it together, provided a minimum shared likewise; the accounts below a node together no more than the node's limit. Within the precision it returns nothing. All accounts (C22-C24) answer as this requires. (Shown: on withdrawals the minimum outflows are never assigned in the first pass.)", "quantifier": "all trees, limits, totals and all feasible solver answers", "why_tests_cant": "All trees and flows.", "anchors": ["forecaster/strategy/transaction/base.py:TransactionTraversal", "forecaster/strategy/transaction/graph.py"]}
{"id": "C43", "title": "SubForecast transactions conserve money", "statement": "Each add_transaction takes exactly value out of the source and puts exactly value into the destination (reversed for a negative value), whatever the timing; the record of transactions says the same, and over all pools and the outside world it always adds up to zero; each part is dated at or after the date its timing asks for; and if the source is a dict of cash flows that can spare the value from some date on, the transaction is dated at the first such date and the source is not overdrawn from then on.", "quantifier": "all sequences of transactions, all source schedules", "why_tests_cant": "All histories.", "anchors": ["forecaster/forecast/subforecast.py:SubForecast.add_transaction"]}
{"id": "C44", "title": "Undoing a sub-forecast restores the available pool", "statement": "However a sub-forecast's transactions went (even if one of them raised), undoing them restores every pool date by date; calling a sub-forecast a second time in the same year leaves every pool as a single call does (sources being cash-flow dicts, or timing strict); the new year starts with nothing to undo. (Shown: a third call in the same year does not, because the record is not emptied when it is undone.)", "quantifier": "all transaction sequences", "why_tests_cant": "All histories.", "anchors": ["forecaster/forecast/subforecast.py:SubForecast.undo_transactions"]}
{"id": "C45", "title": "Forecast runs for exactly the scenario's years and carries over every dollar", "statement": "If each component's next_year() moves it on by one year (perhaps pulling others along, never beyond it) and nothing raises, a Forecast over a scenario of n >= 1 years is built and ends in the scenario's last year (no years: ValueError); every sub-forecast, person and account is in the forecast's year throughout; every sub-forecast is called exactly once per year, in order; and a new year's available money is the net of all of last year's transactions, at its start, plus last year's tax adjustment spread over the refund or payment timing, so that over the run no money appears or disappears between years.", "quantifier": "all scenarios and components", "why_tests_cant": "Induction over years.", "anchors": ["forecaster/forecast/base.py:Forecast"]}
{"id": "C46", "title": "Parsing settings values preserves structure", "statement": "Numeric conversion of a nested JSON value keeps every value under the converted path, invents nothing, keeps the lengths of lists (and of dicts whose keys do not become equal), is idempotent and leaves trees without number-like strings unchanged. (Shown: keys that denote the same number are merged and a value is lost.)", "quantifier": "all nested values", "why_tests_cant": "Structural induction over all nestings.", "anchors": ["forecaster/value_reader.py:ValueReader._numeric_convert"]}
{"id": "C47", "title": "High-precision cached properties belong to their own object", "statement": "A high-precision property read without the cache always returns this object's own value, converted by its own conversion, for any history on any number of objects; the cached variant does so for objects without a conversion, right after a write, and as long as no other object has been read. (False for the cached variant in general: the cache lives on the class-level descriptor and leaks between instances; shown.)", "quantifier": "all interleavings of reads/writes on any number of objects", "why_tests_cant": "Aliasing over all histories.", "anchors": ["forecaster/utility/precision.py"]}
{"id": "C48", "title": "Forecaster parameters are built once per run and shared", "statement": "Parameters that have been assigned are used as they are. Unset ones are built from the settings and the scenario, once per run, whatever is requested in whatever order: all components share one scenario and one inflation adjustment, explicit arguments override defaults, building always ends. Nothing in the forecaster changes except by set_param, which sets one attribute; two runs share no built object. ForecasterCanada differs from Forecaster only in its taxes. (Shown false: build_allocation_strategy works; it always raises.)", "quantifier": "all orders in which parameters are requested", "why_tests_cant": "All request orders.", "anchors": ["forecaster/forecaster.py:Forecaster.get_param", "forecaster/forecaster.py:Forecaster.build_param"]}
{"id": "C49", "title": "How often deductions and credits of a person count", "statement": "tax_person(person, year, deduction, credit) taxes the person's income less the personal deduction, the given deduction and twice the person's own deductions, with the given credit and twice the person's own credits; so each counts once exactly for people without deductions and credits of their own. (Shown false: that each counts once in general.)", "quantifier": "all taxpayers, years, amounts", "why_tests_cant": "All reals.", "anchors": ["forecaster/tax.py:Tax.tax_person", "forecaster/tax.py:Tax.deduction"]}
{"id": "C50", "title": "Canadian tax is federal plus provincial tax", "statement": "TaxCanada(income, year, federal_deduction=..., ...) is the sum of the federal and the provincial tax with the respective deductions and credits. (Side effect shown: a deductions dict passed in by the caller is updated in place.)", "quantifier": "all incomes (amounts, persons, groups), years, deductions, credits", "why_tests_cant": "All inputs.", "anchors": ["forecaster/canada/tax.py:TaxCanada.__call__"]}
{"id": "C51", "title": "Retirement date and retirement age agree", "statement": "A retirement date is accepted iff it is not before the birth date (None raises NotImplementedError); setting retirement_age = n > 0 sets a date in the year the person turns n and then retirement_age reads n (also for n = 0 and a real birth date), a negative age is rejected; a later retirement date never gives a lower retirement age.", "quantifier": "all birth dates (including 29 February), all dates and ages", "why_tests_cant": "All dates.", "anchors": ["forecaster/person.py:Person.retirement_date", "forecaster/person.py:Person.retirement_age"]}
{"id": "C52", "title": "Linked registered accounts move in step", "statement": "Calling next_year on any one of a group of linked registered accounts that are in the same year advances every account of the group by exactly one year (each as Account.next_year does), records each account's room, brings the contributor up to that year and sets the shared room once, from the account called, before anything changed; groups that start in step stay in step; from any state, accounts behind catch up and accounts ahead are left alone. (Shown: room given in inputs for the new year is reported by contribution_room but does not become the shared limit.)", "quantifier": "all groups, all states, all sequences of operations on any accounts of the group", "why_tests_cant": "Mutual recursion over a group of any size and any order of iteration.", "anchors": ["forecaster/canada/accounts/registered_account.py:RegisteredAccount.next_year", "forecaster/canada/accounts/registered_account.py:RegisteredAccount.contribution_room"]}
{"id": "C53", "title": "RRIF conversion, minimum withdrawals and withholding tax", "statement": "rrif_conversion_year never reads later than the year the owner reaches the conversion age, whatever was assigned; the minimum withdrawal is the prescribed share of the opening balance, between 0 and the balance, and 0 up to the year of conversion; min_outflow_limit asks for at least the minimum; the withholding tax is the amount times the rate of its bracket, between 0 and the amount and monotone. (False after conversion: the documentation exempts the minimum withdrawal, the code adds it to the taxed amount; shown.)", "quantifier": "all sequences of assignments, ages, balances, tables, withdrawals", "why_tests_cant": "All histories and amounts.", "anchors": ["forecaster/canada/accounts/rrsp.py:RRSP.rrif_conversion_year", "forecaster/canada/accounts/rrsp.py:RRSP.minimum_distribution", "forecaster/canada/accounts/rrsp.py:RRSP.tax_withheld"]}
{"id": "C54", "title": "Registered accounts: aliased constructor arguments", "statement": "Giving both contribution_room and max_inflow_limit, or max_inflow_link together with contributor or max_inflow_token, raises ValueError; otherwise the limit is the one given and the link is the one given or the pair of contributor (default: owner) and token (default: the type's).", "quantifier": "all combinations of arguments", "why_tests_cant": "All combinations and values.", "anchors": ["forecaster/canada/accounts/registered_account.py:RegisteredAccount._process_alias_args"]}
{"id": "C55", "title": "A portfolio's rate of return is the allocation-weighted average of its asset classes", "statement": "rate_function(person, scenario)(year) is the average of the stock, bond and other returns of the year weighted by the person's allocation that year; with equity limits in [0,1] it lies between the returns of stocks and bonds; if stocks return at least as much as bonds it never increases with age; it fails exactly when the allocation does.", "quantifier": "all ages, retirement ages, parameters and returns", "why_tests_cant": "Continuum of parameters.", "anchors": ["forecaster/strategy/allocation.py:RateFunction"]}
{"id": "C56", "title": "Living expenses strategies: when they return a value", "statement": "A living expenses strategy can be built for exactly the eight documented keys; with at least one person, records for the retirement year and a working inflation adjustment every strategy returns a value. (Shown: it raises TypeError for an empty set of people, and KeyError if an account has no balance recorded for the retirement year.)", "quantifier": "all strategies, families, accounts and histories", "why_tests_cant": "All inputs.", "anchors": ["forecaster/strategy/gross_transaction.py:LivingExpensesStrategy"]}
{"id": "C57", "title": "Values written to a settings file are read back unchanged", "statement": "write then read returns the same tree of values, with or without a high-precision type, if it contains no number-like strings and each integer key / high-precision number is recovered from its own string form; the file contains the same tree with all keys as text and high-precision numbers as text. (Shown: dicts that mix numeric and text keys, or have high-precision keys, can be read but not written.)", "quantifier": "all nested values", "why_tests_cant": "Structural induction over all nestings.", "anchors": ["forecaster/value_reader.py:ValueReader.write", "forecaster/value_reader.py:ValueReader.read"]}
{"id": "C58", "title": "Managed settings attributes", "statement": "Reading a managed attribute returns the value assigned or read from file for this object, else the default if enabled, else KeyError; assigning one does not affect others; reading a file replaces all values, and a failed read does not keep the old ones. (Shown: deleting an attribute always raises KeyError, after removing the value.)", "quantifier": "all objects, names, values and files", "why_tests_cant": "All states.", "anchors": ["forecaster/value_reader.py:ValueReaderAttribute", "forecaster/value_reader.py:ValueReader.read"]}
{"id": "C59", "title": "Taking money from an account: the date is one at which the account can pay", "statement": "When a SubForecast transaction takes value >= 0 out of an Account (timing not strict), it is dated at or after the requested date, and if from some material date on (the requested one or a later transaction date) the account's max_outflow allows value at every later material date, then it is dated no later than the first such date and the account can pay value at every material date from there on; otherwise it is dated as requested. (Shown: this does not prevent an overdraft, because the growth forgone is ignored.)", "quantifier": "all accounts, transactions, limits, values and dates, and any time_to_value", "why_tests_cant": "Interpolated dates and all transaction patterns.", "anchors": ["forecaster/forecast/subforecast.py:SubForecast._accum_account", "forecaster/forecast/subforecast.py:SubForecast._shift_when"]}
{"id": "C60", "title": "time_to_balance is exact between transactions", "statement": "If time_to_value is exact, a finite result T of account.time_to_balance(value, when) is such that the balance at when or at a later transaction date, grown or discounted to T with no transaction in between, is value, so balance_at_time(T) is value if T lies in that stretch of the year; the search always terminates. (Shown: the documented 'earliest time at or after when' is false - the result can be before when.)", "quantifier": "all accounts with any growth, transactions, values and dates", "why_tests_cant": "Recursion over arbitrarily many transactions.", "anchors": ["forecaster/accounts/base.py:Account.time_to_balance"]}
{"id": "C61", "title": "Headline figures of a forecast", "statement": "retirement_year is the year of the last retirement among people who have a retirement date (Shown: AttributeError if nobody has one); savings is what income leaves after living expenses, never negative; principal is the sum of the balances of the accounts in whatever order they are walked.", "quantifier": "all families, dates and amounts", "why_tests_cant": "All inputs.", "anchors": ["forecaster/forecast/base.py:Forecast.retirement_year", "forecaster/forecast/base.py:Forecast.savings", "forecaster/forecast/base.py:Forecast.principal"]}
{"id": "C62", "title": "Income arrives in full, on time, and nothing else moves", "statement": "The first call of IncomeForecast in a year with a dict of available cash always succeeds; it adds exactly the sum of people's net incomes to the cash, at their payment timings' dates in the timings' proportions (for non-negative incomes), changes no other pool, and reports the cash found as carryover. Household net income is the sum over people in any order and equals gross less tax withheld if it does for everybody.", "quantifier": "all households, incomes, payment timings and prior cash", "why_tests_cant": "Any number of people and dates.", "anchors": ["forecaster/forecast/income.py:IncomeForecast.__call__", "forecaster/forecast/income.py:IncomeForecast.net_income", "forecaster/forecast/income.py:IncomeForecast.carryover"]}
{"id": "C63", "title": "Living expenses are taken exactly once, in proportion to income", "statement": "If the household's net income is not zero, calling LivingExpensesForecast succeeds, takes exactly the living expenses out of the cash (shares proportional to net income, at each person's payment dates, never earlier) and touches nothing else; the strategy is given the earliest retirement year, an error if somebody has none. (Shown: with zero net income, e.g. a retired household, it raises ZeroDivisionError and takes nothing.)", "quantifier": "all households, incomes, timings, expenses", "why_tests_cant": "Any number of people; degenerate incomes.", "anchors": ["forecaster/forecast/living_expenses.py:LivingExpensesForecast.__call__"]}
{"id": "C64", "title": "Savings reach the accounts they were allotted to", "statement": "When SavingForecast succeeds every account has received exactly what the strategy allotted to it, the cash has fallen by exactly the reported total, and unmentioned accounts are untouched; it succeeds whenever the amounts are non-negative and all dates lie in the year. The total is retirement savings plus what the debts received when every account is one or the other. (Shown: the reported debt_repayment is not what the debts received but the retirement savings again.)", "quantifier": "all account sets, allocations and prior cash flows", "why_tests_cant": "Any strategy result and any cash flow.", "anchors": ["forecaster/forecast/saving.py:SavingForecast.__call__", "forecaster/forecast/saving.py:SavingForecast.total", "forecaster/forecast/saving.py:SavingForecast.debt_repayment", "forecaster/forecast/saving.py:SavingForecast.retirement_savings"]}
{"id": "C65", "title": "Withdrawals leave the accounts and reach the cash, with their tax", "statement": "When WithdrawalForecast succeeds every account has changed by exactly what the strategy asked, the cash has risen by what was withdrawn plus the change in tax withheld, which is the sum over the accounts of the change of their tax_withheld; calling it again in the same year is the same as undoing it, resetting the tax and calling it once. (Shown, against the documentation: the tax is paid into the cash instead of out of it, so 100 withdrawn at 10% gives 110; net_withdrawals exceeds gross; gross_withdrawals is the shortfall, not the withdrawals; tax_withheld is not reset by next_year.)", "quantifier": "all account sets, allocations and tax functions of accounts", "why_tests_cant": "Any strategy result, any tax function.", "anchors": ["forecaster/forecast/withdrawal.py:WithdrawalForecast.__call__", "forecaster/forecast/withdrawal.py:WithdrawalForecast._update_tax_withheld", "forecaster/forecast/withdrawal.py:WithdrawalForecast.net_withdrawals"]}
{"id": "C66", "title": "Tax withheld counts every account once", "statement": "TaxForecast.tax_withheld is the sum of people's withholdings plus that of their accounts, each account once however many people own it and in whatever order people are listed; the tax owing plus tax_adjustment equals it. (Shown: with nobody it raises TypeError.)", "quantifier": "all households and account ownerships", "why_tests_cant": "Any sharing of accounts, any set order.", "anchors": ["forecaster/forecast/tax.py:TaxForecast.tax_withheld", "forecaster/forecast/tax.py:TaxForecast.tax_adjustment"]}
{"id": "C67", "title": "A year's cash adds up", "statement": "After income, living expenses, saving and withdrawals of a year, the cash is what was carried in, plus net income, less living expenses, less savings, plus withdrawals, plus the change in tax withheld; and every account has changed by exactly what the two strategies asked for.", "quantifier": "all households, strategies, account sets and prior pools for which the four calls succeed", "why_tests_cant": "A statement about the composition of four sub-forecasts on arbitrary states.", "anchors": ["forecaster/forecast/base.py:Forecast.call_subforecasts", "forecaster/forecast/income.py", "forecaster/forecast/living_expenses.py", "forecaster/forecast/saving.py", "forecaster/forecast/withdrawal.py"]}
{"id": "C68", "title": "An ordered list of accounts is filled, and emptied, in order", "statement": "For a TransactionTraversal over a flat ordered list of accounts (no limits on the nodes, no limits shared between accounts): a contribution first brings each account, in list order, to its minimum inflow until the money runs out and then, again in list order, to its maximum inflow, all in whole multiples of precision; without minimums, no account gets anything while an earlier one could take another unit, and money is only left over when every account is full; a withdrawal empties accounts in list order to their maximum outflows. Assumes that networkx returns a maximum flow of minimal cost.", "quantifier": "all lists of accounts of any length, all limits (including infinite maximums), totals and precisions, all optimal answers of the flow algorithm, all accounts in any reachable state", "why_tests_cant": "Tests run a few lists against one networkx version; the claim is about every optimal flow for every list.", "anchors": ["forecaster/strategy/transaction/base.py:TransactionTraversal.__call__", "forecaster/strategy/transaction/base.py:TransactionTraversal._add_node_ordered", "forecaster/strategy/transaction/graph.py"]}
{"id": "C69", "title": "Weighted accounts share in proportion to their weights", "statement": "Money put into, or taken out of, a collection of weighted accounts (no limits on the nodes, none shared between accounts, no minimums) is split between them in proportion to their weights, if the shares are whole multiples of precision and within the accounts' limits; assumes that networkx returns a maximum flow of minimal cost. (Shown false: that priorities carry over to nested ordered lists, that the proportions survive a limit on the node's outflows, even one that is never reached, and that what one of three accounts cannot take is shared in proportion by the others: of 40 in proportion 1:2:1, where the second takes at most 12, the outcome can be 18, 4 and 18.)", "quantifier": "all trees, limits, totals, optimal answers of the flow algorithm", "why_tests_cant": "The defects need particular shapes (three entries deep in a fourth position; an outflow limit).", "anchors": ["forecaster/strategy/transaction/base.py:TransactionTraversal._add_node_ordered", "forecaster/strategy/transaction/base.py:TransactionTraversal._embed_limit", "forecaster/strategy/transaction/base.py:TransactionTraversal._add_weighted_children"]}
{"id": "C70", "title": "Nested ordered lists are filled in the order written", "statement": "For a TransactionTraversal over nested ordered lists (no limits on the nodes, none shared between accounts) in every one of which only the first and the last entry may itself contain several accounts: contributions fill the accounts' minimums and then their maximums, and withdrawals empty them, in the order in which the accounts are written down, and nothing is left over while an account has room. For any nesting: an account gets nothing while an account written earlier in the same list could take another unit. Assumes that networkx returns a maximum flow of minimal cost. (For other nestings the written order fails: C69.)", "quantifier": "all nested lists of any depth and width, all limits, totals, precisions, all optimal answers of the flow algorithm", "why_tests_cant": "Tests use a few trees of two levels; the defect of C69 appears only in particular shapes, so only a proof shows which shapes are safe.", "anchors": ["forecaster/strategy/transaction/base.py:TransactionTraversal._add_node_ordered", "forecaster/strategy/transaction/base.py:TransactionTraversal.__call__"]}
{"id": "C71", "title": "What a TransactionStrategy makes of a set of accounts", "statement": "TransactionStrategy(strategy, weights, ...)(available, accounts) builds a priority tree as follows. High-interest debts (money owing, rate at or above the threshold) come first, ordered by the debt strategy (highest rate first, or smallest debt first). Every other account goes under the weight of the first of its type's names (own type, then supertypes) that has a weight, and accounts without such a name are left out; ordered strategies sort the groups by weight, weighted strategies keep the weights. A group that is just the set of low-interest debts is ordered by the debt strategy, other groups of several accounts have equal weights. Every account with a place appears exactly once. The result does not depend on the order in which Python walks sets beyond ties. (Shown false: that low-interest debts are always paid in order - an account of the same kind that is paid off turns that off -, and that without a threshold all debts count as high-interest, as documented.)", "quantifier": "all sets of accounts, types, balances, rates, weights, thresholds, strategies and all orders of walking sets", "why_tests_cant": "Tests use a handful of account sets; which accounts fall out or lose their order depends on combinations of types, balances and rates.", "anchors": ["forecaster/strategy/transaction/strategy.py:TransactionStrategy.__init__", "forecaster/strategy/transaction/strategy.py:TransactionStrategy.__call__", "forecaster/strategy/transaction/strategy.py:TransactionStrategy.divide_debts", "forecaster/strategy/transaction/strategy.py:TransactionStrategy._weight_account_groups", "forecaster/strategy/transaction/node.py:TransactionNode"]}
{"id": "C72", "title": "Where the money goes under a TransactionStrategy", "statement": "Under the ordered strategy, if every account has a weight key of its own except that the low-interest debts may share one with the smallest or the largest weight: contributions go to the minimum inflows and then the maximum inflows, and withdrawals to the maximum outflows, in this order - high-interest debts by the debt strategy, then the other accounts by weight, the low-interest debts among themselves by the debt strategy. Under the weighted strategy without debts owing, if every account has a key of its own: contributions and withdrawals are split in proportion to the weights, provided the shares are whole multiples of precision and within the accounts' limits. Assumes no limits shared between accounts and that networkx returns a maximum flow of minimal cost. (Shown false: the same with several debts whose weight is between those of other accounts.)", "quantifier": "all sets of accounts meeting the conditions, all limits, totals, precisions, optimal answers of the flow algorithm and orders of walking sets", "why_tests_cant": "The order comes out of an optimisation over a graph generated from the accounts; tests try a few.", "anchors": ["forecaster/strategy/transaction/strategy.py:TransactionStrategy.__call__", "forecaster/strategy/transaction/base.py:TransactionTraversal.__call__"]}
{"id": "C73", "title": "Where the default settings put contributions and withdrawals", "statement": "With the transaction strategies built from the default settings, every set of accounts gets a priority tree. Under Settings every account passed in has a place exactly once, for contributions and for withdrawals. Under SettingsCanada exactly TFSAs, RRSPs and taxable accounts have a place for contributions, in this order; and exactly RRSPs and TFSAs for withdrawals, in this order; accounts without a place get no transaction. (Shown false: that under SettingsCanada money can be withdrawn from taxable accounts - the weights name a class that does not exist -, and that savings go to debts.)", "quantifier": "all sets of accounts of the shipped classes, all amounts, precisions and (feasible) answers of the flow algorithm", "why_tests_cant": "Tests give explicit weights or check single accounts; no test covers which classes fall out of the defaults.", "anchors": ["forecaster/settings.py:Settings", "forecaster/canada/settings.py:SettingsCanada", "forecaster/strategy/transaction/strategy.py:TransactionStrategy"]}
{"id": "C74", "title": "Numeric text assigned to a forecaster parameter is read as a number", "statement": "get_param(name) returns an assigned value that is not text as it is; text that denotes a finite number is returned as that number (an integer if it has no fractional part, otherwise of the high-precision type if one is set), other text unchanged. (Shown false: that nothing raises - 'inf' and 'nan' do -, and that integers are exact - large ones go through a float.)", "quantifier": "all assigned values", "why_tests_cant": "Tests read a few parameters; infinities, not-a-number and integers beyond 2^53 are corner cases of the conversion.", "anchors": ["forecaster/forecaster.py:Forecaster.get_param"]}
{"id": "C75", "title": "Canadian tax with the shipped constants", "statement": "With the shipped constants (province BC) the tax of a person is, whatever was asked of the tax object before: the sum over the federal and the provincial table of max(0, rates(income - basic amount - 2*deductions) - credit rate*(2*credits + min(RRSP withdrawals, pension cap) + spousal credit)), all in dollars of 2017 at the prices of the year. It rises with income and takes at most 66 cents of another dollar; it is positive exactly if the income exceeds the provincial basic amount.", "quantifier": "all incomes, deductions, credits, years, price indices, households and histories of queries", "why_tests_cant": "Tests check brackets at single incomes in 2017; monotonicity, the top marginal rate and the effect of earlier queries range over infinitely many inputs.", "anchors": ["forecaster/canada/constants.py:Constants", "forecaster/canada/tax.py:TaxCanada", "forecaster/canada/tax.py:TaxCanadaJurisdiction"]}
{"id": "C76", "title": "What the default settings amount to", "statement": "The default Scenario multiplies prices by 1.02 per year in both directions; the default AllocationStrategy holds 30% stocks at every age and so returns 4.9% a year; the default LivingExpensesStrategy gives 60000*1.02^(year-2017) whatever the income and the retirement date; the default Tax is zero for every person and income. (Shown false: that management fees reduce the return, and that the allocation never fails - it divides by zero when the retirement age is exactly 100 years away.)", "quantifier": "all years, ages, retirement ages, fees, people, incomes, deductions, credits and histories of queries", "why_tests_cant": "Tests give explicit parameters; what the defaults do over a life is a statement about all years and ages.", "anchors": ["forecaster/settings.py:Settings", "forecaster/scenario.py:Scenario", "forecaster/strategy/allocation.py:AllocationStrategy", "forecaster/strategy/gross_transaction.py:LivingExpensesStrategy", "forecaster/tax.py:Tax"]}
{"id": "C77", "title": "Registered accounts with the shipped constants", "statement": "With the shipped constants: a converted RRSP must withdraw the prescribed share of its balance, which never falls with age, is positive and at most a fifth; tax of 10%, 20% or 30% of the whole withdrawal is withheld up to 5000, up to 15000 and above (dollars of 2017 at the prices of the year); RRSP room grows by 18% of income, at most 25750.55 dollars of 2017, up to age 71; TFSA room is that of the law from 2009 to 2017. (Shown false: that withdrawing more leaves more after withholding, and that later TFSA room follows prices upwards - under default inflation it is at most 4000.)", "quantifier": "all ages, balances, withdrawals, incomes, years and price indices", "why_tests_cant": "Tests check single ages and amounts; monotonicity and thresholds range over all of them.", "anchors": ["forecaster/canada/constants.py:Constants", "forecaster/canada/accounts/rrsp.py:RRSP", "forecaster/canada/accounts/tfsa.py:TFSA"]}
{"id": "C78", "title": "Linked withdrawal limits and minimum flows", "statement": "For each of the four flow limits a linked account answers as an ordinary account would with the pooled transactions of the group (recorded and hypothetical) as hypothetical transactions. So accounts that share a withdrawal limit never together withdraw more than it, in whatever order they withdraw all that max_outflows() permits (unless they mix contributions and withdrawals on a date). (Shown false: that an account linked this way can withdraw exactly what it holds - it can be overdrawn by what the others received, and blocked by what they withdrew.)", "quantifier": "all groups of accounts, histories, limits, arguments and orders of withdrawals", "why_tests_cant": "Tests cover two accounts and contribution limits; pooled withdrawals interact with each account's own balance in ways no test looks at.", "anchors": ["forecaster/accounts/linked_limit.py:LinkedLimitAccount.max_outflows", "forecaster/accounts/linked_limit.py:LinkedLimitAccount.min_inflows", "forecaster/accounts/linked_limit.py:LinkedLimitAccount.min_outflows", "forecaster/accounts/linked_limit.py:LinkedLimitAccount._merge_transactions"]}
{"id": "C79", "title": "A household's forecast, end to end", "statement": "Over the whole run of a Forecast of a household (people, accounts, strategies, the five sub-forecasts): every part is in the year being forecast, before and after its calls; the money at hand at the end is all net income, less the living expenses the strategy gave for each year, less what was paid into accounts, plus what was taken out, plus tax withheld from withdrawals, plus the tax adjustments of all years but the last; with constant rates, what the household owns at the end is what it had, plus income less living expenses plus the returns of every account plus tax adjustments (plus the withholding); each account receives exactly what the two plans say and only assets are drawn on; the report has one row per completed year holding that year's income, living expenses, opening assets and tax owing. (Shown false: that a household that spends what it earns, owes no tax and earns no returns keeps its wealth - withholding is counted twice; that the reported savings and withdrawals are what was saved and withdrawn.)", "quantifier": "all households, numbers of years, incomes, strategies, accounts, limits, tax rules and timings", "why_tests_cant": "Tests run one household through one year; conservation of money over a life is a statement about all strategies, all years and their interaction.", "anchors": ["forecaster/forecast/base.py:Forecast", "forecaster/forecast/income.py:IncomeForecast", "forecaster/forecast/living_expenses.py:LivingExpensesForecast", "forecaster/forecast/saving.py:SavingForecast", "forecaster/forecast/withdrawal.py:WithdrawalForecast", "forecaster/forecast/tax.py:TaxForecast", "forecaster/accounts/base.py:Account.next_year"]}
{"id": "C80", "title": "Forecasts work on copies of what they are given", "statement": "run_forecast(people, accounts, debts) works on faithful copies: every object reachable from the arguments (except functions and tuples of constants) has exactly one new copy of the same kind and contents in which every reference leads to the copy of what it led to, so ownership, marriages, links and shared objects are preserved within and across the three arguments, whatever cycles there are; whatever the forecast then does to the copies, every object reachable from the arguments stays as it was (provided no function among them has captured one), and a second run starts from faithful copies of the same unchanged objects. (Shown false without that proviso: a rate function that has captured a person leads to the original.)", "quantifier": "all object graphs (cyclic or not) in which references lead somewhere and each inner set belongs to one instance, all argument sets, all programs working on the copies", "why_tests_cant": "Tests check that one forecast leaves one balance alone; aliasing and non-interference are statements about all object graphs and all later mutations.", "anchors": ["forecaster/forecaster.py:Forecaster.run_forecast"]}
{"id": "C81", "title": "Reading each other's properties in any order", "statement": "For objects (people, accounts, ...) whose recorded properties are computed from each other's without cycles: reading properties, in any number and order, changes the value of none; which values are cached depends on which were read, not on the order; next_year() completes exactly if every recorded property of the object has a value, and then records exactly those values, whatever the order in which it goes through its set of properties, and changes nothing else but the object's year and caches; the values of properties that do not depend on the object are the same before and after.", "quantifier": "all systems of objects and acyclic getters that read each other's properties and histories, all states, all sequences of reads, all orders of iteration", "why_tests_cant": "Python iterates over a set of properties in an arbitrary order, and any read may fill caches of any object: tests see one order and one history.", "anchors": ["forecaster/ledger/base.py:Ledger.next_year", "forecaster/ledger/recorded_property.py:recorded_property_cached"]}
{"id": "C82", "title": "Recorded balances with inputs, caches and owners", "statement": "With any inputs and any history (reads in any order, transactions, years of people and accounts closed in any order, caches cleared, rates reassigned): an account has a balance on record for every closed year, and each balance on record or read - unless given as an input - is the one on record for the year before, with the transactions on record for that year, grown at the rate on record for the year. An account without inputs behaves like one without caches, whatever happens around it. (Shown false: clear_cache() in the first year deletes the opening balance for good; add_transaction in a year whose transactions were given as inputs changes the caller's dict or raises KeyError.)", "quantifier": "all households, inputs, opening balances and programs that do not assign or delete the account's own balance and rate", "why_tests_cant": "Whether a cached, an input or a computed balance is used depends on the whole history of reads and closings.", "anchors": ["forecaster/accounts/base.py:Account.balance", "forecaster/accounts/base.py:Account.next_year", "forecaster/accounts/base.py:Account.add_transaction", "forecaster/ledger/base.py:Ledger.clear_cache"]}
{"id": "C83", "title": "A year's records agree with each other", "statement": "When Forecast.next_year has taken people and accounts from one year to the next, every property of each has on record for the year the value it had before, and the records agree: taxable income is gross income plus the accounts' taxable incomes, deductions and credits are those of the accounts, tax withheld is the tax on gross income, net income is gross income less it, gross income is last year's with the raise or nothing in retirement - each unless it was on record beforehand. Closing an account's year brings its owner along to the year the account was in, and nobody else. (Shown false: a person's tax deduction that was read before a contribution is stale; closing accounts' years before their owner's mixes two years.)", "quantifier": "all households, states, inputs and getters of registered accounts that are functions of the year and its transactions", "why_tests_cant": "The agreement spans several objects' histories and depends on the order in which they are advanced and read.", "anchors": ["forecaster/forecast/base.py:Forecast.next_year", "forecaster/person.py:Person", "forecaster/accounts/base.py:Account.next_year"]}
{"id": "C84", "title": "Owners and accounts agree", "statement": "After any assignments of account.owner (by constructors too), an account is in owner.accounts of its owner and of nobody else, each account at most once; assigning a person or None is read back and changes no other account. (Shown false: that a rejected assignment changes nothing. Assigning something else than a Person to an owned account raises TypeError but takes the account out of its owner's accounts while it still names the owner, and every later assignment to it raises KeyError, for good.)", "quantifier": "all people, accounts and sequences of assignments, raising ones included", "why_tests_cant": "The two sides of the relation are kept in different objects; consistency depends on the whole sequence of assignments.", "anchors": ["forecaster/accounts/base.py:Account.owner", "forecaster/person.py:Person.accounts"]}
{"id": "C85", "title": "An account as a mapping", "statement": "Iterating over an account yields the dates of its transactions in ascending order, each once; `date in account` (dates, 'start', 'end') tells whether there is a transaction at it; and looking up account[date] at any points of a program returns the transaction or 0 and changes no balance, return, inflow or outflow in this or any later year. (Shown false for other keys: account['start'] is always 0 and makes balance_at_time, returns, iteration and next_year() raise TypeError until the key is deleted or assigned or the account cleared; account[x] with x outside [0,1] lets the year end, but in the next year balance raises ValueError for good.)", "quantifier": "all accounts, keys and programs of lookups, assignments, deletions, transactions and years", "why_tests_cant": "A lookup inserts an entry; whether that matters shows only in later calls, perhaps years later.", "anchors": ["forecaster/accounts/base.py:Account.__getitem__", "forecaster/accounts/base.py:Account.__iter__", "forecaster/accounts/base.py:Account.__contains__", "forecaster/accounts/base.py:Account.__setitem__", "forecaster/accounts/base.py:Account.__delitem__"]}
{"id": "C86", "title": "A sub-forecast's record is keyed by the accounts themselves", "statement": "A sub-forecast's record of transactions, which may be keyed by unhashable objects such as dicts, returns for any program of lookups, assignments, changes in place and clears what a dict keyed by the objects themselves would (unhashable ones told apart by identity), and iterating over it yields the objects in order of first use, provided no hashable key equals the id of an unhashable one; every unhashable key stays referred to, so that its id is not reused. For hashable keys, `in` and `del` work as in a dict; keys() of at most one key is what iteration yields. (Shown, against the documentation: `in`, `del` raise TypeError for such keys and keys() does so for any two keys, items() shows ids, a number equal to an id is taken for the object; and transactions_history does not keep past transactions: the entry of every past year is the dict of the current year, emptied at each next_year().)", "quantifier": "all programs on the record, all objects and ids; all histories of a sub-forecast", "why_tests_cant": "Any mixture of keys, in any order, over any number of years; aliasing shows only after later operations.", "anchors": ["forecaster/forecast/subforecast.py:TransactionDict", "forecaster/forecast/subforecast.py:SubForecast.transactions", "forecaster/forecast/subforecast.py:SubForecast.next_year", "forecaster/ledger/base.py:Ledger.next_year"]}
{"id": "C87", "title": "A forecast's records of a year agree", "statement": "When Forecast.next_year() has run in year Y with everything in year Y, the forecast, its sub-forecasts, its people and accounts are in year Y+1 and every recorded property of each has, in its history for Y, the value it had just before the call, although the objects are closed one after another and read each other; the tax adjustment carried over is the one on record. And, unless a figure was on record beforehand, the records for Y agree: totals over people's gross, net and withheld income; living expenses and tax owing as the strategy and the tax treatment answer for the figures on record; tax withheld counting each account once; adjustment = withheld - owing; net = gross withdrawals + withheld; savings = max(income - living expenses, 0); principal = the assets' balances. Looking at the income forecast's figures, net withdrawals, withdrawals or tax leaves nothing on record; looking at the others does. An account's next_year() first brings its owner to the account's year and moves nothing else. If the tax adjustment cannot be computed, next_year() raises before anything has moved, unless the error is an AttributeError. (Shown false: that this holds whenever figures are looked at: withdrawals or total savings read before the sub-forecasts have run are cached and go on record; debt_repayment records payments into retirement accounts; and that a year that cannot be closed leaves everything as it was: an AttributeError in tax rules surfaces with the forecast and four sub-forecasts already in the next year.)", "quantifier": "all forecasts, people, accounts, strategies, tax treatments, inputs, assigned and cached values, all years", "why_tests_cant": "Each figure is computed from those of other objects, which are themselves being closed or already cached; agreement is about all of them at once.", "anchors": ["forecaster/forecast/base.py:Forecast.next_year", "forecaster/forecast/base.py:Forecast", "forecaster/forecast/income.py:IncomeForecast", "forecaster/forecast/living_expenses.py:LivingExpensesForecast", "forecaster/forecast/saving.py:SavingForecast", "forecaster/forecast/withdrawal.py:WithdrawalForecast", "forecaster/forecast/tax.py:TaxForecast"]}
{"id": "C88", "title": "Filling a priority tree always gives an answer", "statement": "A traversal called with any amount returns transactions instead of raising or looping: if the priority tree has no cycles, contains an account, and has weighted nodes only with children of positive weight, if its accounts answer (which accounts that grow sensibly always do) and if the flow algorithm answers for every network that it accepts (source and sink present, capacities and weights not negative, no unlimited path), then all the networks built and rebuilt while balancing are accepted and the balancing ends, whatever the amount, the limits of accounts, groups and nodes, and the sharing of nodes; for withdrawals, provided the root has no minimum outflow of its own. The limit on recursion changes nothing but whether there is a RecursionError. In particular an ordered list of accounts does get filled in order. (Shown false otherwise: a child of weight 0 can make it raise ZeroDivisionError; a minimum outflow on the root larger than the amount makes the network infeasible.)", "quantifier": "all priority trees, amounts, limits, groups, sharing of nodes, orders of sets and flow algorithms with the stated guarantees", "why_tests_cant": "Termination and absence of errors depend on every intermediate network and flow of a recursion whose depth depends on the flows.", "anchors": ["forecaster/strategy/transaction/base.py:TransactionTraversal.__call__", "forecaster/strategy/transaction/base.py:TransactionTraversal._build_graph", "forecaster/strategy/transaction/base.py:TransactionTraversal._balance_flows", "forecaster/strategy/transaction/graph.py:TransactionGraph"]}
{"id": "C89", "title": "Unusable inputs are refused with the right exception", "statement": "Tax(...) raises ValueError if any of its tables has no brackets, or if it has no table at all and is not given both other tables (if it is, every later question about money raises KeyError); every Tax that was constructed answers credit_rate(year) for every year. Tax.__call__ raises TypeError for a per-person deduction from a sum of money and for a single number as deduction or credit of several people. TaxMulti without jurisdictions charges 0 at rate 0, but raises ValueError for marginal_bracket and TypeError for tax_brackets. Scenario(...) succeeds exactly if num_years is at least 1 and no rate is None, and otherwise raises ValueError. RRSP.next_contribution_room raises KeyError without accrual maxima (until the conversion age). Forecaster.get_param raises AttributeError for a name it does not have and build_param KeyError for a name without class and defaults, both without building anything. Living expenses derived from people raise TypeError without people. build_inflation_adjust raises ValueError for an empty table and TypeError for anything that is neither None nor a dict nor callable.", "quantifier": "all tables, years, amounts, people, strategies, rates and states", "why_tests_cant": "A test tries some bad inputs; that no bad input is silently accepted, and no good one refused, is about all of them.", "anchors": ["forecaster/tax.py:Tax.__init__", "forecaster/tax.py:Tax.add_accum", "forecaster/tax.py:Tax.__call__", "forecaster/tax.py:TaxMulti", "forecaster/scenario.py:Scenario.__init__", "forecaster/canada/accounts/rrsp.py:RRSP.next_contribution_room", "forecaster/forecaster.py:Forecaster.get_param", "forecaster/forecaster.py:Forecaster.build_param", "forecaster/strategy/gross_transaction.py:LivingExpensesStrategy.__call__"]}
{"id": "C90", "title": "A transaction strategy always decides", "statement": "TransactionStrategy.__call__ returns transactions for any available amount, positive or negative, if it has something to work with (a high-interest debt under the ordered strategy, or an account with a weight that is not a high-interest debt), positive weights under the weighted strategy, a known debt strategy (or no debts), accounts that answer and a flow algorithm that answers for the networks it accepts; amounts within the precision are left alone. The recursion limit does not affect the result once it is high enough. Refuted without the conditions: with no account at all, or, under the weighted strategy, with nothing but high-interest debts, it raises.", "quantifier": "all strategies, weights, thresholds, accounts, amounts, orders of sets, account answers and flow algorithms with the stated guarantees", "why_tests_cant": "The tree is different for each set of accounts, and the networks and the recursion depend on it and on the flows.", "anchors": ["forecaster/strategy/transaction/strategy.py:TransactionStrategy.__call__", "forecaster/strategy/transaction/base.py:TransactionTraversal.__call__", "forecaster/strategy/transaction/node.py:TransactionNode"]}
{"id": "C91", "title": "A recorded property means what its declaration says", "statement": "However a recorded property is declared - @recorded_property or @recorded_property_cached over a getter, then @x.getter, @x.setter and @x.deleter any number of times in any order - it goes by the name its author gave it; reading it gives the value on record for the year or else what the last getter computes (put on record if cached); assigning to it does nothing if the user gave a value for the year, else records the value, or, with a setter, drops the record and calls the last setter; deleting it drops the record and calls the last deleter; <name>_history is the record with the current year in it. The order of the decorators is immaterial. These are the operations of the ledger model of C12-C15. Refuted for a property named 'setter' that has a setter: it is recorded as 'getter'.", "quantifier": "all chains of decorators, all getters, setters and deleters (with side effects and exceptions), objects and values", "why_tests_cant": "Every decorator wraps the functions of the previous ones once more; a test exercises particular declarations, not every nesting.", "anchors": ["forecaster/ledger/recorded_property.py:recorded_property", "forecaster/ledger/recorded_property.py:recorded_property_cached"]}
{"id": "C92", "title": "A class finds each of its recorded properties once, with its own history", "statement": "For every class body and method resolution order, the recorded properties of a ledger class are exactly those visible on it (own or inherited, not overridden), each once; creating the class adds <name>_history for each of them, being the history of that very property, and changes nothing else; a new object has a record, holding the user's inputs of that name, for each of these properties and under no other name. All ledger classes of the library satisfy the conditions (each property bound under its own name, none called <other>_history). Refuted for hidden properties: a subclass that hides a recorded property behind an ordinary attribute still shows its <name>_history, which raises AttributeError on every object.", "quantifier": "all class bodies, method resolution orders, inputs and years", "why_tests_cant": "User subclasses are unbounded; a test can only define some.", "anchors": ["forecaster/ledger/base.py:LedgerType.__init__", "forecaster/ledger/base.py:Ledger.__init__"]}
{"id": "C93", "title": "A strategy runs the method its key names", "statement": "A Strategy class supports exactly the keys of the decorated methods visible on it; if no two of them share the key, an object made with the key, or with the method itself, runs that method when called; whatever could be made can be called; an unknown key is refused with ValueError and anything else than a string or a decorated method with TypeError, at construction. A subclass that redefines a method under the same name and key runs its own; redefined without the decorator, the key is gone. In the library no two strategies of a class share a key. Refuted for a key used twice: the method whose name comes last in the alphabet runs, even if another was passed.", "quantifier": "all class bodies, method resolution orders, keys and arguments", "why_tests_cant": "User subclasses are unbounded; a test can only define some.", "anchors": ["forecaster/strategy/base.py:StrategyType.__init__", "forecaster/strategy/base.py:Strategy.__init__", "forecaster/strategy/base.py:Strategy.__call__", "forecaster/strategy/base.py:strategy_method"]}
{"id": "C94", "title": "The priority tree that is written down is the tree that is walked", "statement": "TransactionNode(source, limits) and TransactionTraversal(priority) make, from nested lists, dicts, accounts and TransactionNodes, a tree with one new node for every entry that is not a node, in order, with the dict's weights, nodes within it used as they are, and no existing node changed; only the outermost node gets the limits (up to four, else TypeError). The tree has no cycles, its root is nobody's child and every new node has one parent. By default each account is asked through its own min/max inflow/outflow method, and its own link, for the limit in question. children_subset keeps weights and order, or raises KeyError. Assigning a different tree to priority replaces it. (Shown false: that a TransactionNode holding several accounts can be the whole tree - every call raises AttributeError; that transaction_methods or group_methods can be given - no call succeeds; that a tree changed in place can be assigned again - nothing happens.)", "quantifier": "all nestings of lists, dicts, accounts and existing nodes, all limits, all heaps of nodes that programs can make, all accounts and method tables", "why_tests_cant": "Tests build a few trees; that no node is shared or lost, and that every limit is asked through the right method, is a statement about all trees and all accounts.", "anchors": ["forecaster/strategy/transaction/node.py:TransactionNode", "forecaster/strategy/transaction/base.py:TransactionTraversal.__init__", "forecaster/strategy/transaction/base.py:TransactionTraversal.priority", "forecaster/strategy/transaction/util.py:transaction_default_methods", "forecaster/strategy/transaction/util.py:group_default_methods"]}
{"id": "C95", "title": "A forecast never overdraws an account", "statement": "In a household forecast whose strategies traverse priority trees (every TransactionStrategy does, whatever its kind, weights, debt strategy and threshold), in which no account's rate ever falls from one year to the next and which opens with no overdrawn account and no overpaid debt, no account is overdrawn and no debt overpaid at any time of any year, whatever people earn, spend and are taxed. Strategies with money to spend only pay in, and no more than there is; with money missing they only take out, and no more than is missing. (Shown false without the condition on rates: emptying an account at the end of a year, as max_outflows allows, leaves it overdrawn at the start of the next if its rate falls.)", "quantifier": "all households, incomes, expenses, tax rules, priority trees, numbers of years and times of year; all flow algorithms that return flows", "why_tests_cant": "Solvency at every moment depends on the whole history of the household; a test follows one household through a few years.", "anchors": ["forecaster/forecast/base.py:Forecast", "forecaster/forecast/saving.py:SavingForecast", "forecaster/forecast/withdrawal.py:WithdrawalForecast", "forecaster/strategy/transaction/base.py:TransactionTraversal.__call__", "forecaster/accounts/base.py:Account.max_outflows", "forecaster/accounts/debt.py:Debt.max_inflows"]}
{"id": "C96", "title": "A household's forecast completes", "statement": "In a household forecast whose strategies are TransactionStrategies with an account to work with, a known debt strategy and positive weights, no transfer is refused and no account or strategy fails to answer: the forecast completes exactly if somebody has a net income in every year, whatever people earn, spend and are taxed and however the accounts grow. In the first year without any net income, sharing the living expenses raises ZeroDivisionError. A strategy with n accounts needs no more than 4n + 23 nested calls. (Shown false for arbitrary transfers: moving money out of an account that is empty then, but holds more than that later, raises ZeroDivisionError.)", "quantifier": "all households, incomes, expenses and tax rules that can be worked out, priority settings, numbers of years; all flow algorithms that answer every feasible network", "why_tests_cant": "That nothing ever raises depends on every intermediate state of every sub-forecast in every year; a test runs one household.", "anchors": ["forecaster/forecast/base.py:Forecast", "forecaster/forecast/subforecast.py:SubForecast.add_transaction", "forecaster/forecast/subforecast.py:SubForecast._shift_when", "forecaster/forecast/living_expenses.py:LivingExpensesForecast", "forecaster/accounts/base.py:Account.time_to_balance", "forecaster/strategy/transaction/base.py:TransactionTraversal.__call__"]}
{"id": "C97", "title": "A longer forecast begins like a shorter one", "statement": "A forecast over n + m years is the forecast over the first n years, continued: the additional years of the scenario change nothing in the earlier ones, including whether and how these raise an exception, and the report of the longer forecast begins with the whole report of the shorter. A scenario with more years and rates that agree with the shorter one's has the same rates and the same inflation between any two years the shorter one covers.", "quantifier": "all households and other worlds a Forecast can be built from, all scenarios, numbers of years and rates (numbers, lists, dicts)", "why_tests_cant": "A relation between two runs of any length; a test compares a few lengths for one household.", "anchors": ["forecaster/forecast/base.py:Forecast.__init__", "forecaster/forecast/base.py:Forecast.next_year", "forecaster/scenario.py:Scenario", "forecaster/scenario.py:InflationAdjust.__call__"]}
{"id": "C98", "title": "Living expenses are paid on the paydays, whoever is listed first", "statement": "If the cash received by each date covers the part of the year's living expenses that is due by then, all of them are taken exactly on people's paydays, in proportion to what they are paid on them, and the order of the people (a set, in arbitrary order) makes no difference. In particular a household that starts the year with no negative cash and lives within its net income keeps, of everything it is paid on each date, the same part. (Shown false without enough cash: of two households that differ in nothing but the order of their people one takes 300 from its account at the end of the year, the other 200, half of it at the start.)", "quantifier": "all people, incomes, payment timings, expenses, amounts of cash and dates; all orders of people", "why_tests_cant": "Which of the expenses is put off depends on all dates and amounts; a test lists the people in one order.", "anchors": ["forecaster/forecast/living_expenses.py:LivingExpensesForecast.__call__", "forecaster/forecast/income.py:IncomeForecast.__call__", "forecaster/forecast/subforecast.py:SubForecast._shift_when"]}
{"id": "C99", "title": "No bracket creep", "statement": "When the income, the deductions and the credits of a person grow with the price index between two years that take their tables from the same given years, so does the tax: thresholds and personal deduction move with prices and rates do not, so that the tax is multiplied by exactly the price ratio and the marginal rate stays what it was. The same holds for a plain amount of money and for households of any size in any order, whatever was asked of the tax object before (except the accumulated amounts of a year without a given table, after which it fails).", "quantifier": "all tables of brackets, personal deductions and credit rates, all positive price indices, all pairs of years, amounts, people, households, and histories of earlier questions", "why_tests_cant": "The two years' answers depend on tables derived and cached in any order; a test compares a few incomes in a few years.", "anchors": ["forecaster/tax.py:Tax.tax_brackets", "forecaster/tax.py:Tax.personal_deduction", "forecaster/tax.py:Tax.tax_money", "forecaster/tax.py:Tax.tax_person", "forecaster/tax.py:Tax.tax_people", "forecaster/tax.py:Tax.marginal_rate"]}
{"id": "C100", "title": "Who shares which contribution room", "statement": "Whatever registered accounts are opened, successfully or not, and whatever rooms are assigned, links made and contributions added: as long as no contributor is reassigned, the accounts that share the contribution room of a (contributor, token) pair are exactly those whose contributor and token these are, each once. A new account joins the group its arguments ask for, by default its owner's accounts of its class, and no other; its group's room becomes the one given, else stays, else starts at 0 for an RRSP and at what has accrued for a TFSA; nobody else's room changes, when accounts are opened and when a room is assigned. (Shown false: if inputs fix the first year's room and the group has none yet, max_inflows raises TypeError whatever is asked.)", "quantifier": "all programs of constructions, links, assignments and contributions, with any arguments and any number of people, accounts and tokens", "why_tests_cant": "Who shares what depends on the whole history of constructions; a test opens two accounts.", "anchors": ["forecaster/canada/accounts/registered_account.py:RegisteredAccount.__init__", "forecaster/accounts/linked_limit.py:LinkedLimitAccount._process_link", "forecaster/accounts/link.py:AccountLink", "forecaster/canada/accounts/rrsp.py:RRSP.__init__", "forecaster/canada/accounts/tfsa.py:TFSA.__init__"]}
{"id": "C101", "title": "What a failed constructor leaves behind", "statement": "A constructor of a registered account whose arguments clash (the room, or the contributor or token, given twice) changes nothing. Every other constructor that raises has already put its account among its owner's accounts, with its class and balance: (shown false: a failed construction has no effect) a plain account whose nper is refused goes on adding the interest on its balance, continuously compounded, to its owner's taxable income, so that a retry counts the money twice; an RRSP whose conversion year is refused has joined its contributor's group and replaced the group's room by the one it was given. Nobody but the owner is affected in taxable income.", "quantifier": "all programs, all arguments, all reasons for failure, all people", "why_tests_cant": "The effect of a failure shows only later and elsewhere; a test checks that the exception is raised.", "anchors": ["forecaster/accounts/base.py:Account.__init__", "forecaster/accounts/base.py:Account.owner", "forecaster/canada/accounts/rrsp.py:RRSP.__init__", "forecaster/person.py:Person.taxable_income"]}
{"id": "C102", "title": "Reassigning an account's contributor", "statement": "Assigning account.contributor changes what the account says its contributor is and whose room it reads, and what may be contributed to accounts with other link objects does not change. (Shown false: that it moves the account from one contributor's group to the other's. It stays in the old group and never joins the new one, so contributions to it do not reduce what the new contributor's other accounts may take, and the new contributor can contribute more than the room; if the new contributor has no account of the class, max_inflows raises TypeError, the room reads as None, and assigning it raises AttributeError.)", "quantifier": "all programs without earlier reassignments, all accounts, old and new contributors, contributions and questions", "why_tests_cant": "It relates every other account before and after; a test reads the attribute back.", "anchors": ["forecaster/canada/accounts/registered_account.py:RegisteredAccount.contributor", "forecaster/accounts/link.py:AccountLink", "forecaster/accounts/linked_limit.py:LinkedLimitAccount.max_inflows"]}
{"id": "C103", "title": "Planning facts about tax", "statement": "For a tax object in any state of use, a year with non-negative rates, and any amounts: a greater credit never raises the tax and lowers it by at most the credit rate times the difference; a greater deduction never raises the tax and lowers it by at most the top rate times the difference; with rates that rise from bracket to bracket and no negative thresholds, the part of the income that goes in tax does not fall as the income rises; making two incomes with a given total more equal never raises the sum of their taxes; and so moving income from the higher to the lower earning of two people with the same deductions and credits never raises what they are charged together.", "quantifier": "all tax tables, years, previous queries, incomes, deductions, credits, pairs of people", "why_tests_cant": "these are inequalities between taxes of different incomes; tests compare a few", "anchors": ["forecaster/tax.py: Tax.tax_money, Tax.tax_people, Tax.__call__"]}
{"id": "C104", "title": "Saving more, earlier or at better rates", "statement": "Two accounts opened in the same year with plans of dated payments and withdrawals for any number of years: (1) if rates are never negative and at every moment the opening balance plus net payments so far of the second come to at least those of the first, the second is at every moment ahead by at least the difference of what has been put into them; (2) at any rates, also negative or changing ones, if every payment of the second is at least that of the first on the same date, it never holds less; (3) if money grows at least as fast every year and an account with a non-negative opening balance is only paid into, it never holds less.", "quantifier": "all rates per year, plans over any number of years, dates and amounts, moments", "why_tests_cant": "a comparison of two histories of unbounded length at every moment", "anchors": ["forecaster/accounts/base.py: Account.balance, Account.add_transaction, Account.balance_at_time, Account.next_year", "forecaster/accounts/util.py: accumulation_function"]}
{"id": "C105", "title": "A lifetime of contributions within the room", "statement": "For one TFSA or RRSP that is not linked to others, after any history of contributions, withdrawals and years: what max_inflows allows in total for the year, with any usable timing, is the first room plus all accruals since, less all that was contributed in past years (for a TFSA net of what was withdrawn, for an RRSP gross, up to the conversion age), less what was contributed this year, or nothing if that is negative; contributing all of it leaves nothing allowed; and somebody who never contributes more than max_inflows allows at the time never exceeds the first room plus all accruals over a whole lifetime, nor makes the room negative.", "quantifier": "all histories, rates, timings, tables of accruals, incomes, inflation", "why_tests_cant": "an invariant of histories of unbounded length; tests follow an account through a year or two", "anchors": ["forecaster/accounts/linked_limit.py: LinkedLimitAccount.max_inflows", "forecaster/canada/accounts/registered_account.py: RegisteredAccount.next_year", "forecaster/canada/accounts/tfsa.py: TFSA.next_contribution_room", "forecaster/canada/accounts/rrsp.py: RRSP.next_contribution_room"]}
{"id": "C106", "title": "Asking several jurisdictions at once", "statement": "A TaxMulti's tax_people gives what calling it with the people gives, which is the sum of what its jurisdictions say one by one; tax_spouses of two spouses gives what tax_people gives; tax_person with a deduction and a credit for every jurisdiction gives what calling it gives, and never answers otherwise; tax_brackets(year, bracket) is the sum of the jurisdictions' rates and answers exactly for common thresholds, where for jurisdictions with the same thresholds the rate of the marginal bracket is the marginal rate; personal deduction, credit rate and credit are the first jurisdiction's; setting payment or refund timing can be read back and changes nothing else; total tax is never negative, never falls as income rises, never rises faster than the sum of the top rates, and evening out incomes never raises it.", "quantifier": "any number of jurisdictions with any tables, people, amounts, years, histories of use", "why_tests_cant": "sums over any number of jurisdictions; tests use two with the same tables", "anchors": ["forecaster/tax.py: TaxMulti.tax_people, TaxMulti.tax_spouses, TaxMulti.tax_person, TaxMulti.tax_brackets, TaxMulti.accum, TaxMulti.personal_deduction, TaxMulti.payment_timing, TaxMulti.refund_timing, TaxMulti.__call__"]}
{"id": "C107", "title": "Paying off a debt over the years", "statement": "If at constant rates every year one pays what max_inflows (or min_inflows) of a Debt says, at any timing, and calls next_year, then after n years the balance is exactly that of a debt to which interest is added and from which the maximum (minimum) payment is taken every year, cut off at zero; so it is never overpaid; it is paid off after any number of years that is at least the debt divided by what the payments exceed the first year's interest by; if they do not exceed it the debt never falls below what it was; and greater payments never leave one worse off.", "quantifier": "all debts, payments, growth functions, timings and numbers of years", "why_tests_cant": "a closed form over an unbounded number of years; tests look at one year", "anchors": ["forecaster/accounts/debt.py: Debt.max_inflows, Debt.min_inflows, Debt.__init__", "forecaster/accounts/base.py: Account.add_transaction, Account.next_year, Account.balance"]}
{"id": "C108", "title": "A person's dates and tax treatment after any assignments, and making a person", "statement": "birth_date, retirement_date, retirement_age and tax_treatment read what was accepted last; a bare year means January 1 for a birth and the birthday for a retirement, so that a person given by two years has the difference of years as retirement age and the year minus the year of birth as age; no sequence of assignments to the other attributes makes a person retire before birth. A Person is made exactly when a retirement date not before birth is given, the spouse is a Person or None, the tax treatment is callable or None and can tax the opening income; the new person and the spouse are then tied to each other and nobody else is touched; refused dates touch nobody.", "quantifier": "all dates, years, incomes, raises, tax treatments, existing couples and sequences of assignments", "why_tests_cant": "holds for every history of accepted and refused assignments, including what a refused one leaves behind; tests try one assignment", "anchors": ["forecaster/person.py: Person.__init__, Person.birth_date, Person.retirement_date, Person.retirement_age, Person.tax_treatment, Person.spouse, Person.gross_income"]}
{"id": "C109", "title": "Settings files: what is written is read, and what a failure leaves behind", "statement": "What ValueReader.write has written is what any reader reads from that file later, if no text in it looks like a number and the numbers are written faithfully; write changes no other file; it succeeds exactly if the keys of each dict are all texts or all numbers and no key is a high-precision number, and else raises TypeError. When write fails, the file's former contents are lost: reading it raises ValueError and leaves the reader empty. Handing write a ValueReader (which the documentation allows) always fails in this way. NaN is written but cannot be read. A whole high-precision number comes back as an integer.", "quantifier": "all trees of values, files, file names, readers, high-precision or plain numbers and any state of the file in between", "why_tests_cant": "the values form trees of any depth, and the file may have been written and read by different readers at any time", "anchors": ["forecaster/value_reader.py: ValueReader.read, ValueReader.write, ValueReader.__init__, ValueReader._parse_float, ValueReader._parse_constant, HighPrecisionJSONEncoder.default, resolve_path"]}
{"id": "C110", "title": "Paying debts by snowball or avalanche", "statement": "A DebtPaymentStrategy given money with dates pays each debt first its minimum and then up to what it will take, in the order of the strategy (smallest amount owed, or highest rate, first; equals in the given order), as far as the money goes and in whole units of the precision. So if the money covers all minimums every debt gets its minimum (up to less than one unit), and as long as an earlier debt could take another unit no later one gets more than its minimum, and all money is used up to less than one unit. Only debts are paid, no payment is negative, the payments are together no more than the money, and no debt is overpaid at the end of the year. Nothing is drawn from a debt when money is asked for. With at least one debt there is always an answer, and amounts of at most the precision are left alone. A plain amount, which the documentation allows, always raises AttributeError, and without debts any larger amount raises.", "quantifier": "all lists of debts with their balances, rates, minimum and accelerated payments, all dated amounts, both strategies and every optimal flow algorithm", "why_tests_cant": "the debts, their histories and the amounts are arbitrary, and the result depends on a flow algorithm that may pick any optimal solution", "anchors": ["forecaster/strategy/debt_payment/base.py: DebtPaymentStrategy.__call__, strategy_snowball, strategy_avalanche, _strategy_ordered", "forecaster/strategy/debt_payment/util.py: snowball_priority, avalanche_priority", "forecaster/strategy/transaction/base.py: TransactionTraversal.__call__", "forecaster/accounts/debt.py: Debt"]}
{"id": "C111", "title": "The order in which accounts are kept makes no difference", "statement": "Assets, debts and a person's accounts are kept in Python sets, whose order of iteration may differ from run to run. If two households differ only in these orders (and their strategies give the same answers), and no accounts share their limits (for those that do see C112), a forecast of the one can be made exactly if a forecast of the other can, and then all of it is the same: balances, transactions, cash, records of the sub-forecasts, tax and every figure of the report.", "quantifier": "all households, all strategies, all scenarios, all initial states of the accounts and all orders of the sets", "why_tests_cant": "set order depends on object addresses: a test sees one order per run, and the claim is about all orders and all forecasts", "anchors": ["forecaster/forecast/base.py: Forecast", "forecaster/forecast/withdrawal.py: WithdrawalForecast.__call__", "forecaster/forecast/tax.py: TaxForecast.tax_withheld", "forecaster/accounts/base.py: Account.next_year"]}
{"id": "C112", "title": "Linked registered accounts over the years", "statement": "Linked TFSAs (or RRSPs) share one contribution room. Over a whole forecast, next year's room is worked out by the account that comes up first in the forecast's set of accounts, from that account's own transactions: the room left plus the net contributions (RRSP: contributions) that went each year into the account that came up first is the first room plus all accruals. So room is conserved if only that account is used; otherwise the order of a set decides next year's room, and somebody who contributes only what max_inflows allows can contribute the whole room again every year, without end.", "quantifier": "all groups of linked accounts, all forecasts of any number of years, all transactions, all orders in which the accounts come up", "why_tests_cant": "set order varies from run to run and the discrepancy builds up over years: a test sees one order and a few years", "anchors": ["forecaster/canada/accounts/registered_account.py: RegisteredAccount.next_year", "forecaster/canada/accounts/tfsa.py: TFSA.next_contribution_room", "forecaster/canada/accounts/rrsp.py: RRSP.next_contribution_room", "forecaster/forecast/base.py: Forecast.next_year"]}
{"id": "C113", "title": "A forecast keeps to the limits of the accounts", "statement": "In the forecast of a household whose saving and withdrawal strategies share out the money at hand over priority trees, in no year is more paid into an account, or taken out of it, than the account's max_inflow_limit and max_outflow_limit of that year allow - although two strategies in a row may pay in, transactions may be postponed and flows are computed in two passes. Hence a TFSA or RRSP that is not linked to others is never over-contributed to: over any number of years contributions are at most the first room plus the room accrued.", "quantifier": "all households, priority trees and flow algorithms that give flows, all scenarios and numbers of years, all accounts that do not share their limits", "why_tests_cant": "limits interact with cash, earlier transactions of the year and the room carried from year to year: a test sees a few households over a few years", "anchors": ["forecaster/forecast/saving.py: SavingForecast.__call__", "forecaster/forecast/withdrawal.py: WithdrawalForecast.__call__", "forecaster/strategy/transaction/base.py: TransactionTraversal.__call__", "forecaster/accounts/base.py: Account.max_inflows, max_outflows", "forecaster/canada/accounts/tfsa.py: TFSA.next_contribution_room", "forecaster/canada/accounts/rrsp.py: RRSP.next_contribution_room"]}
{"id": "C114", "title": "A forecast does not depend on the currency unit", "statement": "If every amount of money a household consists of is given in another unit (cents instead of dollars) - incomes, balances, limits, expenses, what its strategies and its tax treatment answer - then the forecast runs to the same year and every figure in it is the old one in the new unit: cash on hand at each moment of the year, every account's balance and transactions, every figure of every year's report. If the forecast raises an exception it raises the same one in every unit.", "quantifier": "all positive conversion rates, all households, all scenarios and initial accounts", "why_tests_cant": "a test compares two runs; a hidden absolute threshold or an amount mixed up with a share shows only for particular amounts", "anchors": ["forecaster/forecast/base.py: Forecast.__init__, next_year, call_subforecasts", "forecaster/forecast/subforecast.py: SubForecast.add_transaction, __call__", "forecaster/accounts/base.py: Account.balance, add_transaction, next_year", "forecaster/forecast/living_expenses.py: LivingExpensesForecast.__call__", "forecaster/forecast/withdrawal.py: WithdrawalForecast.__call__"]}
{"id": "C115", "title": "A strategy's plan does not depend on the currency unit, up to its precision", "statement": "The plan of a priority tree or of a TransactionStrategy for an amount is the same in every unit if the precision is given in the same unit as the amounts: the accounts' answers, the tree built from the accounts (which debts are owed, snowball order) and the flow problem stay the same. The same is true of the plan of a DebtPaymentStrategy; the order of its debts also stays the same if the interest rates are stated in another unit or all changed by the same amount. The precision, however, is the fixed number EPSILON: whenever an amount is distributed, there is a unit in which, with the precision unchanged, nothing of it is.", "quantifier": "all positive conversion rates, all trees, strategies, accounts, flow algorithms and amounts", "why_tests_cant": "the flow network is built in multiples of the precision by recursion over the tree; tests compare a few amounts", "anchors": ["forecaster/strategy/transaction/base.py: TransactionTraversal.__call__, _build_graph, _embed_limit", "forecaster/strategy/transaction/strategy.py: TransactionStrategy.__call__", "forecaster/strategy/transaction/util.py: _convert_flows_to_transactions", "forecaster/accounts/base.py: Account.max_inflows, max_outflows, transactions_to_balance"]}
{"id": "C116", "title": "Taxes and living expenses do not depend on the currency unit", "statement": "With thresholds, personal deductions, pension and spousal amounts, incomes, deductions and credits given in another unit, the tax on an amount, of a person, of a couple, of any set of people and of both Canadian jurisdictions together is the old tax in the new unit, the marginal rate is the same, and all eight living expenses strategies and their schedules ask for the old amount in the new unit; where an exception is raised, it is the same one. This holds in years for which tables are extended by inflation and for a tax object in any state.", "quantifier": "all positive conversion rates, all tables, years, inflation adjustments, people, strategies and states of the tax object", "why_tests_cant": "a misplaced factor (scaling rates instead of thresholds, crediting an amount without its rate) agrees with the right formula in the units the tests use", "anchors": ["forecaster/tax.py: Tax.__init__, tax_brackets, accum, marginal_bracket, marginal_rate, tax_money, tax_person, tax_people, tax_spouses, __call__, TaxMulti.__call__", "forecaster/canada/tax.py: TaxCanadaJurisdiction.credit, TaxCanada.__call__", "forecaster/strategy/gross_transaction.py: LivingExpensesStrategy.__call__, LivingExpensesStrategySchedule.__call__"]}
{"id": "C117", "title": "A forecast does not depend on the calendar", "statement": "If everything that happens to a household in a year happens to another one a fixed number of years later - incomes, rates of return, expenses, what strategies and the tax treatment answer, the years of the accounts and the scenario - then the second household's forecast is the first one's, that number of years later: it ends in the correspondingly later year with the same cash, the same balances and transactions, the same figures in each year of the report and the same records under the later years. If one forecast raises an exception, so does the other, and the same one.", "quantifier": "all numbers of years (negative ones too), all households, all scenarios and initial accounts", "why_tests_cant": "a test compares two runs; a year that is counted from the wrong origin or compared with a constant shows only for particular years", "anchors": ["forecaster/forecast/base.py: Forecast.__init__, next_year, call_subforecasts", "forecaster/accounts/base.py: Account.balance, next_year", "forecaster/ledger/base.py: Ledger.next_year", "forecaster/forecast/subforecast.py: SubForecast.next_year"]}
{"id": "C118", "title": "Scenarios, taxes and living expenses do not depend on the calendar", "statement": "If the years of a scenario, of the rates given for it, of tax tables and of people's histories are all written a fixed number of years later, then the scenario has its old years that number later with the same rates and the same inflation adjustments; marginal rates, brackets, personal deductions, credit rates and the tax on an amount of money, on a person, a couple or several people - for a plain tax, for a Canadian jurisdiction with its credits, for federal and provincial tax together - are those of the corresponding year before, whether the year lies before, between or after the years of the tables and whatever was asked before; and every living expenses strategy, and every schedule of them, asks for the same amount. Where one calculation raises an exception the other raises the same.", "quantifier": "all numbers of years, all scenarios and ways to give rates, all tax tables, all incomes, deductions and credits, all strategies and schedules of them", "why_tests_cant": "a test compares two runs; a year that is compared with a constant or extrapolated from the wrong table shows only for particular years", "anchors": ["forecaster/scenario.py: Scenario.__init__, inflation_adjust, accumulation_function", "forecaster/tax/base.py: Tax.__init__, tax_brackets, accum, marginal_rate, personal_deduction, credit_rate, __call__", "forecaster/tax/multi.py: TaxMulti.__call__", "forecaster/canada/tax.py: TaxCanadaJurisdiction, TaxCanada", "forecaster/utility/strategy/gross_transaction.py (living expenses)"]}
{"id": "C119", "title": "Account links are values: equality, sets, and what can be made into a link", "statement": "Two account links are equal exactly if they have the same owner and token, hence exactly if they always give access to the same record; comparing links always answers and equal links have equal hashes, so a set of links never raises, never holds two links for one group of accounts and finds a link exactly if one for its group was added. In any program equal links are interchangeable: every operation gives the same result or exception. is_linked says whether an account has been linked and not unlinked since through any equal link. The constructor takes a link, a LinkTuple or any sequence of two objects, registers it without disturbing any existing record, and refuses everything else with a TypeError (an owner without data with an AttributeError).", "quantifier": "all links, all default factories, all hash functions and orders of insertion, all programs of link operations, all constructor arguments", "why_tests_cant": "a test builds a few sets and compares a few links; equality of two objects with different default factories matters at any point of a program, and hash collisions cannot be provoked", "anchors": ["forecaster/accounts/link.py: AccountLink.__init__, __eq__, __hash__, is_linked"]}
{"id": "C120", "title": "The report of a family of persons with a tax and a living expenses strategy", "statement": "For a family of people made with their raises, retirement dates, withholding taxes and first incomes, with plain accounts, a tax and a living expenses strategy, every row of the forecast's report is a formula in what was given: income is what the members take home (first incomes grown by the raises of all the years since, nothing after retirement, less what their own tax withholds); the living expenses are what the strategy answers when told the year, the year of the first retirement in the family, and everybody's incomes, records and accounts (base amount adjusted for inflation, share of the take-home pay or of the earnings, ...); the tax is the sum over the members of the year's brackets applied to what each has earned at work and on their accounts, less the personal deduction.", "quantifier": "all families, contracts, tax tables, strategies, account histories and numbers of years", "why_tests_cant": "a test wires two mocked people to a forecast and reads a year or two; that people, strategy, tax and forecast agree on who is asked what in which year concerns every year of every household", "anchors": ["forecaster/forecaster.py: Forecaster.run_forecast", "forecaster/forecast/tax.py: TaxForecast.tax_owing", "forecaster/forecast/living_expenses.py: LivingExpensesForecast.living_expenses", "forecaster/person.py: Person.gross_income, net_income, tax_withheld, taxable_income, tax_deduction, tax_credit"]}
{"id": "C121", "title": "The forecast of a family from beginning to end", "statement": "A family of persons with plain accounts, a tax with rates that are not negative, a living expenses strategy that can be worked out, and TransactionStrategies with what they need for saving and withdrawing: its forecast completes exactly if the members' take-home pay does not come to nothing in any of its years; so no family can be forecast beyond the year in which its last member retires (ZeroDivisionError), if nothing is withheld from nothing. When it completes and rates never fall, no account is ever overdrawn and no debt overpaid, at any time of any year, and every row of the report is the formula of C120. Every tax object with rates that are not negative and a positive price index qualifies.", "quantifier": "all families, contracts, tables, strategy settings, account rates and numbers of years; all flow algorithms that answer every feasible network", "why_tests_cant": "a test runs one family for a few years; that the pieces never fail together, in any year, and stop exactly at retirement, concerns every family", "anchors": ["forecaster/forecaster.py: Forecaster.run_forecast", "forecaster/forecast/base.py: Forecast", "forecaster/forecast/living_expenses.py: LivingExpensesForecast.__call__", "forecaster/strategy/transaction/base.py: TransactionStrategy", "forecaster/person.py: Person.net_income"]}
{"id": "C122", "title": "The taxes of a family with RRSPs, TFSAs, taxable accounts and a residence", "statement": "In the forecast of a family whose accounts are plain accounts, RRSPs, TFSAs, taxable accounts and residences, with any limits, the report shows for every year but the last the sum over the members of the year's brackets applied to what the member has earned at work, what the member's plain accounts have earned, what has been taken out of the member's RRSPs and half of the gains realized on the member's taxable accounts (worked out from their whole history; what the program has cached is the same), less the personal deduction and twice what has been paid into the member's RRSPs (contributions are deducted twice); what is in a TFSA or a residence does not matter. When the next year begins, what was withheld by employers and from RRSPs comes back and that tax is paid. If the taxable accounts are not overdrawn at the beginning and their rates never fall, the forecast completes exactly if the members' take-home pay does not come to nothing in any of its years, whatever the limits of the accounts; and the tax an RRSP withholds can always be worked out from tables that are not empty and know the age of 90.", "quantifier": "all families, contracts, kinds of accounts, limits, withholding rules, tables, strategies and numbers of years", "why_tests_cant": "a test runs one family with one RRSP for a year; that contributions and withdrawals of every account of every member reach the right member's tax, and nothing else does, in every year concerns every family", "anchors": ["forecaster/canada/accounts/rrsp.py: RRSP.taxable_income, RRSP.tax_deduction, RRSP.tax_withheld", "forecaster/canada/accounts/tfsa.py: TFSA.taxable_income", "forecaster/canada/accounts/principle_residence.py: PrincipleResidence.taxable_income", "forecaster/person.py: Person.taxable_income, Person.tax_deduction", "forecaster/forecast/tax.py: TaxForecast", "forecaster/forecaster.py: Forecaster.run_forecast", "forecaster/canada/accounts/taxable_account.py: TaxableAccount.capital_gain, TaxableAccount.acb, TaxableAccount.taxable_income"]}
{"id": "C123", "title": "A Canadian family's forecast", "statement": "For a family whose tax object is a TaxCanada, the tax the forecast reports and pays for a year is, summed over the members and over the two jurisdictions, the jurisdiction's brackets of that year applied to what the member earned at work and what the member's accounts count as income (plain accounts' returns, RRSP withdrawals, half of realized gains), less the basic amount and (twice) RRSP contributions, less, at the credit rate, (twice) the accounts' credits, the member's RRSP withdrawals up to the pension amount, and the spousal credit, but never less than nothing per member and jurisdiction. The spousal credit is the spousal amount less the spouse's net income and goes to the spouse with more net income; at most one of two spouses gets it. With the shipped constants these are the amounts of C75, in dollars of 2017. The forecast completes exactly if in every year the members' take-home pay does not come to nothing: neither jurisdiction's taxes, credits nor the accounts' limits stop it; and when a new year begins, what employers and RRSPs withheld comes back and these taxes are paid.", "quantifier": "every family, its wage contracts, accounts of any kind, rules of the two jurisdictions (and any price index and history of questions for the shipped rules), any number of years, any order of memory addresses", "why_tests_cant": "The tests ask a tax object about people made by hand for a few years, or run one default forecast; they cannot check that in every year of every forecast the tax paid is the one the rules imply for the accounts as they are at the end of that year, nor that the forecast always gets to the end.", "anchors": ["forecaster/canada/tax.py: TaxCanada.__call__, TaxCanadaJurisdiction.credit", "forecaster/forecast/tax.py: TaxForecast.tax_owing", "forecaster/forecaster.py: Forecaster.run_forecast", "forecaster/person.py: Person.taxable_income"]}
{"id": "C124", "title": "What a Canadian family is called and where it is kept", "statement": "The tax a Canadian family owes for a year does not depend on what its members are called or in which order they are listed, nor on where they are in memory, except that, when two spouses have exactly the same net income, the one with the higher memory address gets the spousal credit (canada/tax.py:137-140): this makes no difference to the family if there is no such credit to be had or if either of them owes enough to use all of it; otherwise it does.", "quantifier": "every family of single people and couples, every renaming of its members, every order of memory addresses, every state of the accounts, every rules of the two jurisdictions in force in a year", "why_tests_cant": "A test runs in one process, where each object has one address and a set of people one order; equal net incomes with credits that exceed the tax are a corner a handful of examples does not visit.", "anchors": ["forecaster/canada/tax.py: TaxCanadaJurisdiction._spousal_tax_credit, TaxCanada.__call__", "forecaster/forecast/tax.py: TaxForecast.tax_owing", "forecaster/tax.py: Tax._tax_people"]}
{"id": "C125", "title": "Persons compare by gross income", "statement": "Of two persons whose gross incomes of the current year can be read, one is greater (smaller) than the other exactly if its gross income is higher (lower); max(people) and min(people) are the first of those with the highest and the lowest gross income, sorted(people) are the same persons from the lowest to the highest gross income, those with equal incomes in the order they were in; nothing of this changes what anybody earns. The incomes compared are the starting incomes, raised every year, and 0 after retirement. >= and <= are not defined (TypeError), nor is a comparison with anything that has no gross income; if an income cannot be read, the comparison fails; max and min of nobody are a ValueError.", "quantifier": "every list of persons in every order, of any length, with any incomes, histories of readings and years", "why_tests_cant": "The tests compare two persons with different incomes once; order, ties, stability and the absence of side effects concern every list and every history.", "anchors": ["forecaster/person.py: Person.__gt__, Person.gross_income"]}
{"id": "C126", "title": "Compounding more often", "statement": "At the same rate, whether positive or negative (as long as nothing is lost entirely in one period), money compounded more often has grown by no less (or shrunk by no more) at every time, and strictly so unless the rate or the time is 0; a target above what one has is reached no later. Of two accounts with the same never negative opening balance, the same rates of every year and the same payments into them, over any number of years, the one that compounds more often never holds less; of two that start with the same debt and are only drawn on, it never owes less. The named frequencies A, SA, Q, BM, M, SM, BW, W, D, C are in this order, from the least to the most frequent; C (continuous) is above every number.", "quantifier": "every rate above -100% per period, every two frequencies (positive integers or continuous), every time (also negative), every opening balance, plan of payments and number of years", "why_tests_cant": "Tests compare a few rates and frequencies to numbers worked out by hand; that no rate, frequency, time or plan of payments reverses the order is an inequality over real numbers.", "anchors": ["forecaster/accounts/util.py: accumulation_function, time_to_value", "forecaster/accounts/base.py: Account.nper, Account.balance_at_time", "forecaster/utility/timing.py: frequency_conv, FREQUENCY_MAPPING"]}
{"id": "C127", "title": "Capital gains, contribution room and withholding do not depend on the currency unit or the calendar", "statement": "If every amount given to a taxable account (opening balance, cost base, transactions) is stated in another unit of money, then its balance, cost base, capital gain and taxable income in every year are the same amounts in that unit, and what fails there fails with the same exception. The same holds for RRSPs and TFSAs in any group of linked accounts (balances, contribution room, the room a new TFSA is given or infers), and for the minimum withdrawal and the tax withheld of an RRSP or RRIF, if the amounts in the rules (accrual maximums, the thresholds of the withholding tax, the yearly TFSA amounts and the amount these are rounded to) are stated in that unit too. If instead all years are moved by a constant (the accounts, rates, rules, inflation, ages and incomes), no figure changes.", "quantifier": "every positive factor and every shift of years, every opening state, rate function, table of rules, inflation, ages and incomes, and every sequence of transactions, readings and years (over all accounts of a group)", "why_tests_cant": "Tests check gains and room of a few accounts in fixed years in dollars; that no amount or year is built into the code can only be said of all sequences and all units at once.", "anchors": ["forecaster/canada/accounts/taxable_account.py: TaxableAccount.acb, capital_gain, taxable_income", "forecaster/canada/accounts/registered_account.py: RegisteredAccount.next_year, contribution_room", "forecaster/canada/accounts/rrsp.py: RRSP.next_contribution_room, minimum_distribution, tax_withheld", "forecaster/canada/accounts/tfsa.py: TFSA.next_contribution_room, _infer_initial_contribution_rm"]}
{"id": "C128", "title": "An account depends only on the net amount of every date", "statement": "It makes no difference to an account in which order a year's transactions are entered with add_transaction, whether an amount is entered at once or in parts, whether a date is given as a number or as 'start' or 'end', or whether amounts are entered and taken back on the same date: if in each of several years the transactions of every date add up to the same amounts, then that year and in all years that follow the balance, the balance at every time (also with further transactions in mind), the returns, the taxable income, the inflows and outflows and what max_outflow(s), max_inflows, min_outflows and min_inflows allow (also for debts) are the same. For a taxable account the cost base, the capital gain and the taxable income are the same too, and one history fails with ZeroDivisionError exactly if the other does.", "quantifier": "every state an account can be in, every two plans of transactions over any number of years with the same net amount at every date, every time, set of limits and arguments of the queries", "why_tests_cant": "Tests enter transactions in one order; a dependence on the order or on parts could show in any query in any later year.", "anchors": ["forecaster/accounts/base.py: Account.add_transaction, balance, balance_at_time, returns, inflows, outflows, next_year", "forecaster/accounts/base.py: Account.max_outflows, max_inflows, min_outflows, min_inflows, transactions_to_balance", "forecaster/accounts/debt.py: Debt.max_inflow", "forecaster/canada/accounts/taxable_account.py: TaxableAccount"]}
