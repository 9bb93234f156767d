# Formal model of ChrisCScott/forecaster in Lean 4

The code in `/repo/forecaster` is modelled, function by function, as shallow
total Lean functions in `lean/Verif/Model/*.lean`; every definition cites the
file and lines it models. Properties are stated and proved in
`lean/Verif/Props/*.lean`, helper lemmas live in `lean/Verif/Lemmas/*.lean`,
and small independent specifications live in `lean/Verif/Spec/*.lean` or at the
head of the property file that uses them.

## Trusted base

* Lean 4.33.0's kernel; the axioms `propext`, `Classical.choice`, `Quot.sound`
  (inherited through Mathlib; no axiom is added here).
* The reading of the Python source: the code is not executed here, so the tie
  between model and code is the line-by-line citation.
* Numbers. Money, timings and weights are elements of an arbitrary linearly
  ordered field `K` (instantiated to `ℚ` in the non-vacuity examples and to `ℝ`
  where compound interest needs real powers). The application can be run with
  `high_precision=Fraction`, for which this is exact; binary `float` rounding
  is *not* modelled.
* Python dicts are insertion-ordered association lists with unique keys
  (`Verif/Model/Dict.lean`).
* Exceptions are values (`Except`/`Option`), not silently totalised.
* Object identity, where it matters (links, spouses, descriptors, ledgers,
  shared transaction dicts) is modelled with explicit stores.
* External code (networkx min-cost flow, json, datetime) is a parameter or a
  small specification, named in the file that uses it.

## Plan per property

| id | property | how it is modelled and proved |
|---|---|---|
| C01 | Timing(when, frequency) is a uniform partition of the year | Model `Timing.__init__` (numeric branch) as a fold of dict assignments over `range(n)`; prove the resulting dict by closed form, distinctness from injectivity of (i+w)/n. |
| C02 | Timing built from a dict only ever has usable (non-negative) weights on the given timings | Model `_convert_dict` branch by branch over insertion-ordered dicts; case analysis. |
| C03 | Net-inflow series: Timing withdraws everything, as early as possible, and never overdraws | Model both loops of `_accum_inflows` literally (sorted keys, in-place update of `accum`); prove a loop invariant giving the closed form cumulative = max(0, min future prefix sum), then optimality. |
| C04 | Net-outflow series: Timing contributes the least that avoids a negative running balance | Model the `_accum_outflows` loop; invariant: cumulative = max(0, max past -prefix); then optimality. |
| C05 | Splitting an amount over a Timing conserves the amount and the proportions | Algebra over a field; guard weight-sum != 0 explicit, ZeroDivision modelled as an error value; negation with a witness for the empty Timing. |
| C06 | normalized() preserves proportions, sums to 1 and is idempotent | Same model as C05. |
| C07 | add_transactions/subtract_transactions act pointwise and are inverse | Dict fold model; pointwise spec by `get 0`. |
| C08 | when_conv accepts exactly 'start', 'end' and numbers in [0,1] | Argument type as an inductive (str/num); exhaustive case analysis. |
| C09 | nearest_year returns the closest earlier year, or the earliest one if none is earlier | Fold/filter model; spec by max/min characterisation. |
| C10 | Inflation adjustments compose | Model function values; group laws. |
| C11 | Scenario.accumulation_function composes and Scenario covers exactly its years | Model per-year series as lists and `accumulation_function` as products over ranges; telescoping by induction. |
| C12 | Ledger history is gap-free | State machine of a ledger with inputs, history, this_year; invariant by induction over operation lists. |
| C13 | User inputs are never overwritten by the model | Same machine; invariant. |
| C14 | The past of a ledger is immutable | Same machine; frame lemma by induction. |
| C15 | Cached recorded properties are stable within a year and recomputed in the next | Machine with getter-evaluation counter and an adversarial underlying state; invariant. |
| C16 | The accumulation function is an exponential law | Over the reals with Real.rpow / Real.exp. |
| C17 | value_at_time and time_to_value are mutually inverse | Over the reals with Real.log. |
| C18 | balance_at_time is the sum of the grown opening balance and grown transactions up to that time | Accounts parametrised by an accumulation function A(t); algebra with list sums. |
| C19 | Next year's opening balance is this year's closing balance | Machine for account years; induction; negation with a witness for a varying rate. |
| C20 | Account transactions accumulate and are partitioned into inflows and outflows | Dict machine; induction over operation sequences. |
| C21 | transactions_to_balance hits the requested balance exactly | Field algebra on the weighted sum of accumulation factors. |
| C22 | Withdrawals reported by max_outflows never overdraw the account | From C21 by clamping; limits may be infinite (modelled with explicit infinity). |
| C23 | Contributions reported by max_inflows respect the contribution limits | Same. |
| C24 | Debt payments never overpay | Same model specialised to debts. |
| C25 | Linked accounts share one limit record per (owner, token) | Heap-like registry model (token -> shared record); invariant over operation lists. |
| C26 | Contribution room shared by linked accounts is not exceeded | Linked merge model; invariant over contribution sequences; negation with a witness. |
| C27 | Which limit a limit setter of a linked account writes | Setter model; negation with witness. |
| C28 | Income tax is the bracket-wise integral of the marginal rates | Bracket tables as dicts; relate accum table + marginal rate to the integral spec by induction on sorted thresholds. |
| C29 | Marginal bracket lookup returns the bracket containing the income | Same model. |
| C30 | Tax tables for a year do not depend on the order of queries | Cache as state; induction over query sequences. |
| C31 | Household tax is independent of the order of people and additive | Multiset/permutation argument. |
| C32 | TaxMulti is the sum of its jurisdictions | List induction. |
| C33 | Canadian spousal and pension credits are bounded and not double-claimed | Case analysis. |
| C34 | RRSP contribution room | Machine over years. |
| C35 | TFSA contribution room | Machine over years. |
| C36 | Taxable account capital gains and adjusted cost base | Fold over sorted transactions; invariant. |
| C37 | Spouses are mutual | Finite map of spouse pointers; invariant; negation with witness. |
| C38 | Gross income and age | Dates as lexicographic triples; arithmetic. |
| C39 | Asset allocation sums to one within bounds | Piecewise-linear arithmetic. |
| C40 | Living expenses are never negative | Arithmetic, case analysis over the strategies. |
| C41 | Debt priority strategies order all debts by interest rate / balance | Sorted permutations. |
| C42 | Strategy transactions are within the accounts' limits and add up to the amount allocated | The flow solver (networkx) is a parameter assumed to return a feasible flow; the rest is modelled. |
| C43 | SubForecast transactions conserve money | State machine of pools; conservation by induction. |
| C44 | Undoing a sub-forecast restores the available pool | Same machine. |
| C45 | Forecast runs for exactly the scenario's years and carries over every dollar | Loop over years with component clocks. |
| C46 | Parsing settings values preserves structure | Nested inductive values; structural recursion. |
| C47 | High-precision cached properties belong to their own object | Descriptor cache machine; negation with witness. |
| C48 | Forecaster parameters are built once per run and shared | A state machine of the forecaster (attributes, tables of defaults, memo, heap of built objects), with build_param recursive on fuel; invariant over all sequences of requests: the heap is described by one value per name. Non-circularity of the shipped tables proved, hence termination. |
| C49 | How often deductions and credits of a person count | Same tax model; negation with a witness. |
| C50 | Canadian tax is federal plus provincial tax | Same tax model. |
| C51 | Retirement date and retirement age agree | Same dates as C38. |
| C52 | Linked registered accounts move in step | Group machine with fuel for the mutual recursion; invariants; total correctness for groups in step, partial correctness for all. |
| C53 | RRIF conversion, minimum withdrawals and withholding tax | Arithmetic and list extrema. |
| C54 | Registered accounts: aliased constructor arguments | Case analysis. |
| C55 | A portfolio's rate of return is the allocation-weighted average of its asset classes | Weighted average algebra on top of C39. |
| C56 | Living expenses strategies: when they return a value | Case analysis over the strategies; exceptions as values. |
| C57 | Values written to a settings file are read back unchanged | `write` as a tree transformation (JSON text not modelled), inverse of the conversion of C46; structural induction. |
| C58 | Managed settings attributes | Dict model of `values`; case analysis. |
| C59 | Taking money from an account: the date is one at which the account can pay | Same machine as C43; invariant of the interpolation loop over consecutive dates. |
| C60 | time_to_balance is exact between transactions | Recursion with fuel; induction; exactness of time_to_value assumed as stated. |
| C61 | Headline figures of a forecast | Folds over lists; case analysis. |
| C62 | Income arrives in full, on time, and nothing else moves | Sub-forecast machine of C43 with the transactions of income.py; effect of a list of requests by induction. |
| C63 | Living expenses are taken exactly once, in proportion to income | Same, with the shares of living_expenses.py. |
| C64 | Savings reach the accounts they were allotted to | Same, a loop over the strategy's dict (strategy a parameter); invariant: cash dates stay in the year. |
| C65 | Withdrawals leave the accounts and reach the cash, with their tax | Same, plus account tax as a function of the account's state; invariant of the loop. |
| C66 | Tax withheld counts every account once | Sum over the finite set of accounts. |
| C67 | A year's cash adds up | Composition of C62-C65. |
| C68 | An ordered list of accounts is filled, and emptied, in order | Graph of the list computed exactly by induction over the list; `max_flow_min_cost` a parameter specified as feasible, maximal, cheapest; exchange arguments give the greedy filling; real accounts shown exact. |
| C69 | Weighted accounts share in proportion to their weights | The graph built for weighted accounts is computed edge by edge; the proportional split is a flow of full value and zero cost, so every optimal flow is that split and balancing changes nothing. Refutations: witnesses with an optimality certificate (potentials) for the flow. |
| C70 | Nested ordered lists are filled in the order written | Penalties in the tree of lists computed as a potential on accounts; every optimal flow is sorted by it (exchange argument), and with long entries at the edges only it increases in written order. |
| C71 | What a TransactionStrategy makes of a set of accounts | Accounts as records of what is read from them; sets as lists in an arbitrary order (a parameter constrained to be a permutation); the tree compared with a specification relation, by induction over the accounts. |
| C72 | Where the money goes under a TransactionStrategy | Composition: C71 gives the shape of the tree, C70 and C69 what an optimal flow does with it. Refutation: witness with an optimality certificate. |
| C73 | Where the default settings put contributions and withdrawals | The weights of both settings classes and the class hierarchy as tables; composed with C71 (which accounts get a place) and C42 (accounts outside the tree get nothing). Refutations: witnesses. |
| C74 | Numeric text assigned to a forecaster parameter is read as a number | get_param on the same state machine; float and high-precision conversion are parameters of the environment. Refutations: witnesses. |
| C75 | Canadian tax with the shipped constants | The tables as literal data; composition of C28, C30, C32, C33 with a closed form of the rates (sum of positive parts), for any price index; monotonicity and the 66% bound by Lipschitz estimates of the closed form. |
| C76 | What the default settings amount to | The default objects built with the modelled constructors from literal settings; closed forms from C11, C39, C41, C28, C30. |
| C77 | Registered accounts with the shipped constants | The constants as literal data; C53, C34, C35 instantiated, the table compared with an independent one entry by entry. Refutations: witnesses. |
| C78 | Linked withdrawal limits and minimum flows | Composition of the pooling lemma (C26) with C22; induction over the order of withdrawals, date by date. Refutations: witnesses. |
| C79 | A household's forecast, end to end | Composition: the Forecast model (C45) instantiated with the sub-forecast models (C62-C66), people and accounts; induction over the years with an explicit decomposition of the run (`Run`). Refutations: witnesses computed by the kernel. |
| C80 | Forecasts work on copies of what they are given | Heap model of `copy.deepcopy` with a shared memo (instances, sets, tuples, functions). Invariant of the memo (an injective partial map onto finished copies), proved by induction on the recursion; termination by counting uncopied objects; non-interference by an inductive closure of what a program can reach. Refutation: witness. |
| C81 | Reading each other's properties in any order | `Model/Recorded.lean`: getters as programs (read a property / look into a history / return) over a system of objects; reads fill caches. A cache-free evaluation is defined by recursion on rank, and every run of reads and recordings is shown to be that evaluation plus a set of cache entries (`grow`), by induction on rank and program. Acyclicity is proved for people and accounts. |
| C82 | Recorded balances with inputs, caches and owners | `Model/RecordedHousehold.lean` instantiates C81 with Person and Account. An invariant on the histories (`Rec`) proved over all programs; and a simulation by the cache-free `Model/Account.lean`. Refutations: general statements with instances. |
| C83 | A year's records agree with each other | The same model: closing years as Forecast.next_year does, using C81's "records the values" and non-interference for each object in turn. Refutations: witnesses. |
| C84 | Owners and accounts agree | Model/Owners.lean: owners and account sets of all people as a state, assignments with the state they leave when raising; invariant by induction over assignments. The refutation is a theorem about all later programs. |
| C85 | An account as a mapping | Model/Mapping.lean: an account with its numeric and its text keys; `defaultdict` lookups insert. Harmlessness is a simulation (equal values at all dates) between the program with and without lookups; the poisoning theorems are invariants over all later programs. |
| C86 | A sub-forecast's record is keyed by the accounts themselves | Model/TxDict.lean: the underlying dict and `_unhashablekeys`; simulation of an ordinary dict keyed by a sum type (hashable / object). The history of `transactions` is modelled with references, so that aliasing is visible; an invariant over all programs shows every recorded reference is the current one. |
| C87 | A forecast's records of a year agree | Model/RecordedForecast.lean: forecast and sub-forecasts as further objects of the system of ledgers (C81); strategies and tax treatments are arbitrary computations that read people's and accounts' figures. Lemmas/RecordedClose.lean: closing objects in order of level leaves the values of all the rest alone, by induction over the list of objects. |
| C88 | Filling a priority tree always gives an answer | Same model. Lemmas/TraversalTotal.lean: an invariant of every graph that is built (edges of the right shape, capacities and weights not negative, everything leaving a limit node finite, all children present) makes it acceptable to the flow algorithm; balancing ends because each recursion has fewer children (or has just been told to stop). Lemmas/TraversalExists.lean: such networks have a flow of maximal value and minimal cost, so the specification of the algorithm can be met. |
| C89 | Unusable inputs are refused with the right exception | The models of those constructors and methods; case analysis, and induction over the tables. |
| C90 | A transaction strategy always decides | Model/TxStrategy.lean on top of Model/Traversal.lean. The trees of C71 are shown to satisfy the conditions of C88 (the rank of a node is its height; the trees have at most three levels and two nodes per account, which bounds recursion). |
| C91 | A recorded property means what its declaration says | Model/Decorated.lean: the closures that the decorators build, nested as property.setter etc. nest them. Induction over the chain of decorators: each wrapper around functions that already follow the flat specification changes nothing. A refinement theorem ties this to Model/Ledger.lean. |
| C92 | A class finds each of its recorded properties once, with its own history | Model/Discovery.lean: class namespaces as dicts, getattr along the MRO, inspect.getmembers, the metaclass's setattr loop. Lemmas about folds of dict assignments; the library's classes as a table checked exhaustively. |
| C93 | A strategy runs the method its key names | Model/Discovery.lean, as C92. |
| C94 | The priority tree that is written down is the tree that is walked | A heap of node objects and the constructors that add to it; the specification relates a node to what was written down, by recursion on the latter. The heap only grows, new nodes refer downwards, and each gets its one parent when that is made: invariants of the mutual recursion. Refutations for all trees: the first statement that fails is reached because every node is visited. |
| C95 | A forecast never overdraws an account | The household model of C79 with strategies given by the traversal of C42. Invariant through the five calls of a year: every account was only paid into, or only drained and still on the right side at the end of the year (which, growth being multiplicative, bounds every earlier balance); dates stay within the year although transactions are put off. Prudence of the traversal: both passes spread money evenly, so the closing balance moves by the total times one factor, and the totals are bounded by C42. Induction over the years. |
| C96 | A household's forecast completes | The household model of C79 again. Every exception that a transfer can raise is traced to a cause (a date outside the year, an interpolation between balances of the wrong sign, a plan that cannot be rescaled) that prudence (C95) and sensible growth exclude; what was taken out earlier in the year is followed through the saving and withdrawal forecasts. Strategies answer by C90, with a bound on recursion from the shape of their trees. Induction over the years. |
| C97 | A longer forecast begins like a shorter one | The models of C45, C79 and C11. `Forecast.__init__` is an equation between runs: n + m years = n years, then next_year and call_subforecasts m times, exceptions included; the report only grows. Scenarios: relation between the rate arguments, induction over the years of the inflation product. |
| C98 | Living expenses are paid on the paydays, whoever is listed first | The model of C43/C63. `_shift_when` leaves a payment on its date if the running total never falls below it; induction over people and paydays with what is still to be paid as the invariant. Counterexample by evaluation of the household model. |
| C99 | No bracket creep | The model of C28-C31. By C30 the two years' tables are one table with thresholds scaled by two index values; the choice of bracket and the bracket sum commute with scaling thresholds and income by a positive factor, and C49, C31 carry the claim to persons and households. |
| C100 | Who shares which contribution room | Constructors as operations on a world of people's data, link objects, account objects and people's account sets, each returning the changed world and possibly an exception. Invariant: link numbers exist, each link's pair has a record, groups are exactly the accounts with the pair, without duplicates; by induction over programs. Opening is characterised by following the constructor through Account, LinkedLimitAccount, RegisteredAccount, RRSP/TFSA. |
| C101 | What a failed constructor leaves behind | Same model. Everything after the owner is told preserves owner sets, classes and ledgers, whichever step raises; income of the owner's accounts as a fold over them. |
| C102 | Reassigning an account's contributor | Same model and invariant; reassigning changes one link object only. maxInflowsOf depends on the group of the pair read through the link. |
| C103 | Planning facts about tax | From C28 (tax is the bracket-by-bracket sum) and C31, C49: the tax is max(T(x-d)-c*cr,0) with T monotone, Lipschitz and convex. |
| C104 | Saving more, earlier or at better rates | Plans as lists of years of dated amounts, carried out by add_transaction and next_year. Recurrence for opening balances; summation by parts over the dates of a year (sorted), with the lead in payments as induction hypothesis over the years. |
| C105 | A lifetime of contributions within the room | C23 (one state) and the conservation laws C34, C35 (years) for a one-account group; an invariant by induction over histories from the end: contributions of the year within the room, room plus past contributions within first room plus accruals. |
| C106 | Asking several jurisdictions at once | `sumOver_ok` generalises C32; congruence jurisdiction by jurisdiction for people, spouses and persons; uniqueness of the marginal bracket for equal thresholds; C28 and C103 summed over jurisdictions for planning; kernel computation for the refutations. |
| C107 | Paying off a debt over the years | One year from the core lemma of C23/C24 and the carry-over of C19; induction over years for a closed form (geometric sums); the rest is algebra on the closed form. |
| C108 | A person's dates and tax treatment after any assignments, and making a person | The attributes as a record, each assignment a function to the new record and what it raises; induction over programs of assignments; the constructor as the sequence of setters, whose effect on the spouse survives a later exception; success characterised by an iff; two refutations for what a refused assignment, or a refused construction, leaves behind. |
| C109 | Settings files: what is written is read, and what a failure leaves behind | Files as a dict from paths to JSON trees or texts that are no JSON; json.dump and json.load with the parse hooks as functions by recursion on trees; round trip by induction on the tree; a failed dump leaves a broken file. |
| C110 | Paying debts by snowball or avalanche | The strategy as a traversal of the sorted list of debts; the flat case of the nested-tree theorem (C70) with the limits real debts answer (C95 lemmas); facts about the two passes by induction on the list; existence of an answer from C88. |
| C111 | The order in which accounts are kept makes no difference | Opening the new years of two accounts commutes (owners are raised to a maximum), so the loops over the set of accounts do not depend on the order; sums and snapshots over sets are invariant; then induction on the years. |
| C112 | Linked registered accounts over the years | Advancing the first account of a group in step advances all of them and the rest of the loop does nothing (on the lemmas for C52); induction on the years gives the exact balance of the room. For the refutation a pair of accounts is followed by induction for any number of years, C23 giving what `max_inflows` answers in each. |
| C113 | A forecast keeps to the limits of the accounts | What an account answers to the traversal is its limit less what has been moved already; with C42 the plan keeps to it. The two plans of a year have the same sign (C95), so what the first has moved reduces the second. Every state of a registered account in the run is a state of the group model of C105 (its transactions made one by one), and induction on the years carries C105's invariant along the household's run (C79). |
| C114 | A forecast does not depend on the currency unit | Verif/Lemmas/Units.lean defines what it means to multiply the money in a dict, an account, a pool, a sub-forecast, a household by c, and proves function by function that the model commutes with it: balances and limits of accounts, the choice of dates, the legs of a transaction, undoing a year, timings made from amounts, the five sub-forecasts, the year's tax and report, advancing everybody; then by induction over the components, their years and the scenario's years. Every household has its counterpart in every unit (C114_every_household). |
| C115 | A strategy's plan does not depend on the currency unit, up to its precision | With amounts and precision multiplied by c, every capacity of the network is the same integer, so by induction on the recursion depth the same graph is built and balanced, the same flows come back and the amounts are c times the old ones. The accounts' answers commute with c by Verif/Lemmas/Units.lean. The refutation picks the unit in which the amount equals the precision. |
| C116 | Taxes and living expenses do not depend on the currency unit | Verif/Lemmas/UnitsTax.lean: multiplying thresholds by c commutes with extending tables, accumulating brackets (induction over the sorted thresholds), picking a bracket, tax on money, then with the recursion of tax_people (induction on its depth, with the invariant that the credit method stays the same) and with the Canadian credits. Living expenses: by cases on the strategy and induction on the schedule. |
| C117 | A forecast does not depend on the calendar | Verif/Lemmas/Calendar.lean defines what it means to move an account, a pool, a sub-forecast, a household k years on and proves function by function that the model commutes with it, up to the year loop of the Forecast and the loops in which components catch up; Props/Calendar.lean states the consequences, shows that every household can be moved and that the household of C96 with real strategies meets the hypothesis. |
| C118 | Scenarios, taxes and living expenses do not depend on the calendar | Verif/Lemmas/CalendarTax.lean says what a change of calendar does to rates, scenarios, taxes, payers and jurisdictions and proves function by function that the model commutes with it (nearest year, extension of tables by inflation, remembered brackets, the recursion over people and couples); Props/CalendarTax.lean states the consequences and adds Canada and the living expenses strategies. |
| C119 | Account links are values: equality, sets, and what can be made into a link | Model/LinkValue.lean models the constructor with all kinds of arguments, is_linked, == with the objects a link may meet, hashes, and membership in a hash set with an arbitrary hash function; Props/LinkValue.lean proves equality = same owner and token = same record in every state, the set invariant by induction over the insertions, interchangeability by induction over programs, is_linked by the state machine of C25. |
| C120 | The report of a family of persons with a tax and a living expenses strategy | Model/Family.lean wires the models of Person, living expenses strategies, Tax and plain accounts into the household of C79 the way run_forecast and the sub-forecasts do; Props/Family.lean proves that a person's year, incomes and records are the closed formula (a state invariant, by induction over the years), that the strategy is told exactly that, that the tax object is asked about exactly these people and answers the bracket sum (C28, C31, C49), and, with C79, the report. |
| C121 | The forecast of a family from beginning to end | Props/FamilyStrategy.lean instantiates C96 (completes), C95 (solvent) and C120 (report) with the household of Model/Family.lean: the strategy's and the tax object's answers are shown to exist from their parts. C79/C120 need plans that can be carried out whatever a strategy is asked; Props/HouseholdStrategy.lean shows that a run of a household with prudent strategies is the run of one whose strategies are checked, so that C79's books also hold for the program's own strategies (C79_prudent_cash, C79_prudent_report, C79_prudent_wealth, C79_strategies_wealth). The example is a couple over the reals with a savings account and a loan, forecast for up to 11 years and not for 12. |
| C122 | The taxes of a family with RRSPs, TFSAs, taxable accounts and a residence | Model/FamilyKinds.lean gives the answers of the Canadian accounts; Props/FamilyKinds.lean computes what each member owes (C122_tax, from C120_tax and C34), what is withheld (a sum over disjoint sets of accounts), and puts both into the run of C79 (C122_report); a taxable account answers with the gain worked out from its history, which is the cached one (Props/CapitalGain.lean, C122_capital_gain, by an invariant over all operations); and, for the program's own strategies, C96 and C95 (C122_completes, C122_forecast): no withdrawal overdraws a taxable account, so its gain can always be worked out (an invariant of the run, Varied.carries). Examples: a couple over the rationals, computed by the kernel, and the couple of C121 with an RRSP over the reals. |
| C123 | A Canadian family's forecast | Model/FamilyCanada.lean puts the jurisdictions of C33/C50 into the household of C120: what a jurisdiction sees of the family (spouses, incomes, outflows of RRSPs) is read off the same people and accounts. Specification: `Rules`, `InForce`, `owes`, `spousalOf`, `declared`. `C123_tax` (any kinds of accounts), `C123_tax_on_accounts`, `C123_one_spousal_credit`, `C123_shipped` (the rules of C75 for any index), `C123_report`, `C123_completes`, `C123_forecast`, from C28, C31, C33, C50, C79, C95, C96, C122. A couple with an RRSP under two jurisdictions is calculated, and a couple under the shipped rules meets all hypotheses for any number of years. |
| C124 | What a Canadian family is called and where it is kept | From C123: `C124_renaming` for any permutation of the members that keeps spouses, owners and addresses; `C124_addresses` by pairing spouses (the sum over the family equals the sum over the other halves); `C124_addresses_refuted`: a couple that owes 500 or 515 according to who comes first in memory. |
| C125 | Persons compare by gross income | Model/PersonOrder.lean: `__gt__` reads (and caches) two incomes; `max`, `min` and a stable insertion sort are written out over it. Induction over the list; the incomes are those of C38 (`C125_by_pay`). `C125_greater`, `C125_not_comparable`, `C125_unknown_income`, `C125_max`, `C125_min`, `C125_sorted`. |
| C126 | Compounding more often | Bernoulli's inequality for real exponents and exp x ≥ 1 + x give one year; powers give any time (`C126_accumulation`); `C126_time_to_value` from C16 and C17; `C126_savings` and `C126_borrowing` from C104; `C126_named_frequencies` over the table of codes. |
| C127 | Capital gains, contribution room and withholding do not depend on the currency unit or the calendar | Every function commutes with multiplying amounts (or adding to years): by cases for one operation, by induction over the fuel for the mutual `next_year` of linked accounts, and by induction over the program. |
| C128 | An account depends only on the net amount of every date | All figures are sums over the dict of transactions of functions that are 0 for the amount 0, so that they depend only on the value at every date (`sum_vals`); that two accounts have the same balance and the same values is kept by entering transactions with the same nets and by `next_year` (`Alike`), by induction over the years. For taxable accounts the loop over the sorted dates skips dates whose net amount is 0 without effect, and the others are the same dates (`compute_alike`). |

## What is modelled, file by file

| source | model | left out |
|---|---|---|
| `utility/timing.py` | `Model/Timing.lean` | `high_precision` conversions; string frequencies other than the listed ones |
| `utility/inflation.py`, `scenario.py` | `Model/Inflation.lean` | equality/hash of scenarios; docstring-only features |
| `utility/precision.py` | `Model/Precision.lean` | - |
| `ledger/base.py`, `ledger/recorded_property.py` | `Model/Ledger.lean` (one ledger), `Model/Recorded.lean` (ledgers that read each other), `Model/Decorated.lean` (the decorators), `Model/Discovery.lean` (the metaclass) | how Python computes a method resolution order; docstrings |
| `accounts/util.py` | `Model/Accum.lean` (over the reals), `Lim` in `Model/Traversal.lean` | floating-point error |
| `accounts/base.py`, `accounts/debt.py` | `Model/Account.lean`; with owners, caches and `inputs`: `Model/RecordedHousehold.lean`; owner assignment: `Model/Owners.lean`; lookups by any key: `Model/Mapping.lean` | reassignment of nper after construction |
| `accounts/link.py`, `accounts/linked_limit.py` | `Model/Link.lean` | other uses of `Person.data` |
| `tax.py`, `canada/tax.py` | `Model/Tax.lean`, `Model/TaxMulti.lean` | rounding; a `TaxMulti` inside a `TaxMulti` |
| constructors of plain accounts, RRSPs and TFSAs, as effects on people, links and groups | `Model/Opening.lean` | the three other links of linked accounts; `inputs` other than `contribution_room`; owners that are no `Person`; `initial_year=None` |
| `canada/accounts/*.py` | `Model/Registered.lean`, `Model/RegisteredYears.lean`, `Model/Taxable.lean` | `inputs` other than `contribution_room`; RESP (not in the code) |
| `canada/constants.py`, `settings.py`, `canada/settings.py`, `data/*.json` | `Model/Defaults.lean`, `Model/Shipped.lean` | constants that no code reads (RESP, CPP, OAS) |
| `person.py` | `Model/Person.lean`; recorded properties with caches and `inputs`: `Model/RecordedHousehold.lean`; comparisons: `Model/PersonOrder.lean` | parsing of date strings other than years |
| `strategy/base.py`, `strategy/allocation.py` | `Model/Allocation.lean`, `Model/Discovery.lean` (the metaclass, `__init__` and `__call__` of `Strategy`) | |
| `strategy/gross_transaction.py`, `strategy/debt_payment/*.py` | `Model/Expenses.lean` | - |
| `strategy/transaction/{base,graph,node,util}.py` | `Model/Traversal.lean`; constructors, `priority`, method tables: `Model/Node.lean` | networkx itself (a parameter with a specification), infinite per-node limits |
| `strategy/transaction/strategy.py` | `Model/TxStrategy.lean` | `None` as a key of weights |
| `forecast/subforecast.py` | `Model/SubForecast.lean`, `Model/TxDict.lean` | `high_precision` |
| `forecast/{income,living_expenses,saving,withdrawal,tax}.py` | `Model/CashFlow.lean`; recorded properties with caches and `inputs`: `Model/RecordedForecast.lean` | |
| `forecast/base.py` | `Model/Forecast.lean` (over any components), `Model/Household.lean` (over the real ones, with the figures it records) | per-property history dicts (the report is a list of rows) |
| (how `run_forecast` puts the parts together) | `Model/Family.lean`, `Model/FamilyKinds.lean`, `Model/FamilyCanada.lean` | what a property that raises does to the forecast (it counts as 0); spouses outside the family |
| `forecaster.py`, `canada/forecaster.py` | `Model/Builder.lean`, `Model/Copying.lean` (the copies of people, accounts and debts; the model of `copy.deepcopy` follows CPython's `Lib/copy.py` and is trusted) | what constructors do with their arguments |
| `value_reader.py` | `Model/Reader.lean` | JSON text, the file system |

Not modelled at all: package `__init__` files, documentation, `setup.py`, the test suite.

Everywhere: amounts are exact (an ordered field); no concurrency (the code has none); memory
exhaustion and keyboard interrupts are not considered; Python's recursion limit appears as `fuel`
where recursion is not structural.

## Where the code does not do what is documented or expected

Each is proved, with a witness or for all inputs, by the theorem named.

1. The setters of `max_outflow_limit`/`min_outflow_limit` on linked accounts write the inflow limit
   (`C27_outflow_setters_write_inflow_limit`).
2. The cache of `HighPrecisionOptionalPropertyCached` lives on the class and leaks between objects (C47).
3. After `next_year()` an account's opening balance is last year's money regrown at the *new* year's
   rate (`C19_rate_change_regrows_last_year`).
4. `account['start'] = v` adds instead of replacing (`C20_setitem_string_accumulates`).
5. `Tax.tax_person` counts a person's own deductions and credits twice (`C49_person_tax`).
6. `Tax.accum(year)` before `tax_brackets(year)` caches wrong tables (`C30_accum_poisons_cache`).
7. `TaxMulti.tax_brackets` reports zero rates; `tax_money` needs explicit deductions (C32).
8. TFSA accruals fall as prices rise, start a year early; `inputs` with future years only make the
   constructor raise; contributions to linked accounts are forgotten at year end (C34, C35); an early
   RRIF conversion does not stop RRSP accrual (C34).
9. RRSP withholding after conversion adds the minimum withdrawal (C53).
10. `Person.spouse = x` leaves x's former spouse dangling; a rejected assignment releases one side (C37).
11. `raise_rate_callable = None` breaks the person (C38).
12. `AllocationStrategy` divides by zero when the formula asks for 100% stocks and `max_equity < 1`;
    rebalancing up loses part of `other` (C39).
13. `Scenario.inflation_adjustments` is the inverse of its documentation (C11).
14. A perfectly balanced dict makes an empty `Timing`, over which an amount disappears (C05).
15. `TransactionTraversal`: minimum outflows are never assigned in the first pass; nested ordered lists
    can be filled out of order; outflow limits on nodes switch off weights; groups linked for the
    maximum only can exceed it (C42, C69, C70, C72).
16. `TransactionStrategy`: without a threshold all debts count as low-interest, contrary to the
    documentation; a paid-off debt of the same class turns off the debt order (C71).
17. A third call of a sub-forecast in a year is wrong, because undoing does not empty the record (C44).
18. `SavingForecast.debt_repayment` sums over retirement accounts (C64).
19. `LivingExpensesForecast` raises `ZeroDivisionError` when nobody has net income (C63).
20. Offsetting transactions at one date re-open contribution room (C26).
21. JSON keys that denote the same number are merged (C46); dicts mixing numeric and text keys cannot
    be written (C57); deleting a managed attribute always raises (C58).
22. `Forecast.retirement_year` raises if nobody has a retirement date (C61).
23. `build_allocation_strategy` always raises (C48).
24. The capital gain of a taxable account is stale after `del account[t]`/`clear()` (C36).
25. Withdrawal dates ignore forgone growth: the account can still be overdrawn (C59).
26. `time_to_balance` can return a date before `when` (C60).
27. `TaxForecast.tax_withheld` raises without people (C66).
28. The default withdrawal weights of `SettingsCanada` name a class that does not exist, so taxable
    accounts are never drawn on (C73).
29. `get_param` raises on "inf"/"nan" and rounds large integers (C74).
30. `marginal_bracket` at a threshold is the bracket below it (C29); the spousal credit can exceed the
    spousal amount for a negative net income (C33).
31. 29 February: ages are undefined on that day for people born in other years, and leap-day births
    are a year younger in common years (C38).
32. The shipped BC brackets are the federal ones, so the top rate is 66% (C75).
33. The default allocation has equal minimum and maximum: 30% stocks at all ages; management fees are
    never charged; no tax is ever due under the default `Tax`; a retirement exactly 100 years away
    makes the default allocation divide by zero (C76).
34. Withholding applies one rate to the whole withdrawal: withdrawing a dollar more can leave 500 less
    (C77). TFSA room under default inflation falls below 4000 after 2017 (C77).
35. Pooling transactions for a linked withdrawal limit also pools them into the balance: an empty linked
    account can be overdrawn, a full one blocked (C78).
36. Tax withheld from withdrawals is added to the cash and refunded again when tax is settled; the
    reported savings and withdrawals are not what was saved and withdrawn (C79).
37. Functions are not copied by `run_forecast`: a rate function that has captured a person leads back to
    the original (C80).
38. `clear_cache()` in an account's first year deletes its opening balance, which cannot be computed
    again; `add_transaction` in a year whose transactions are inputs changes the caller's dict or raises
    (C82).
39. A person's tax deduction (credit) is cached when it is first read in a year: later contributions are
    not in it; and closing accounts' years before their owner's puts next year's account income into the
    owner's taxable income (C83).
40. Assigning something that is no person to an owned account's `owner` raises, but the account is lost:
    every later assignment raises KeyError (C84).
41. Looking up `account['start']` or `account[2]` inserts an entry and breaks the account, now or next
    year; `account.get(...)` always raises TypeError (`dict.get` takes no keywords) (C85).
42. `SubForecast.next_year` clears the very dict it has just recorded: `transactions_history` holds the
    current year's dict under every past year; `keys()` of a `TransactionDict` raises TypeError for two
    or more accounts, `in` and `del` for dicts (C86).
43. A child of weight 0 can make a traversal raise ZeroDivisionError; a minimum outflow on the root of a
    priority tree larger than the amount withdrawn makes networkx raise (C88).
44. `TransactionStrategy.__call__` raises if there is no account to work with and the amount exceeds the precision:
    under the weighted strategy `ValueError` (`max` of no weights), even if there are high-interest debts (C90);
    under the ordered one networkx is asked about a network without a sink. A household without accounts can
    therefore not be forecast.
45. A `Ledger` subclass that hides an inherited recorded property behind an ordinary attribute inherits its
    `<name>_history`, which raises `AttributeError` on every object (`C92_hidden_refuted`).
46. A recorded property called `setter` (or `deleter`) loses its name as soon as it has a setter (deleter):
    it is recorded as `getter` (`C91_reserved_name_refuted`).
47. If two visible methods of a `Strategy` class have the same key, the one whose *name* is alphabetically last
    runs; so a subclass's replacement under a new name may be ignored, even when passed as a method
    (`C93_same_key_refuted`).
48. If one of three or more weighted accounts cannot take its share, the rest need not be shared in proportion, and
    the account itself may get less than fits, though its share is more: balancing asks for a flow several times
    and combines answers that do not belong together (`C69_excess_refuted`).
49. A `TransactionNode` that contains several accounts cannot be passed as `priority` (the copy made of it has no
    `children`): every call raises `AttributeError`, so limits cannot be set on a whole tree
    (`C94_root_node_refuted`).
50. The documented arguments `transaction_methods` and `group_methods` of `TransactionTraversal` cannot be used:
    `LimitTuple(x)` makes `x` the first field and leaves the others `None` (`C94_methods_argument_refuted`).
51. A priority list that is changed in place and assigned to `priority` again is compared with itself; the old tree
    stays (`C94_priority`).
52. `Forecast.next_year` looks for the tax adjustment with `hasattr`, so an AttributeError raised by tax rules is
    taken for a missing attribute and surfaces only when the tax forecast is closed, with the forecast and four
    sub-forecasts already in the next year (`C87_half_closed_refuted`).
53. Next year's opening balance is worked out from this year's opening balance at next year's rate. If the rate
    falls, an account that was emptied at the end of a year is overdrawn at the start of the next
    (`C95_falling_rates_refuted`).
54. Moving money out of an account that is empty at the time, but holds more than that later in the year, raises
    `ZeroDivisionError` instead of waiting: `time_to_balance` divides by the balance
    (`C96_empty_account_refuted`).
55. When cash is short, the outcome of a forecast depends on the order in which the set of people is iterated: an
    expense that cannot be met on its date is put off if there will be enough later, so the first person to claim
    the money gets it. Two runs of the same program can take different totals out of the accounts
    (`C98_order_refuted`).
56. If `inputs` fix the contribution room of the first year and the group has no room yet, the account's
    `max_inflow_limit` stays `None` and `max_inflows` raises `TypeError` (`C100_inputs_refuted`).
57. A constructor that raises leaves its account among its owner's accounts, where its interest counts as the
    owner's income; calling the constructor again counts the money twice (`C101_retry_refuted`). A refused RRSP has
    already replaced its group's room (`C101_late_conversion`).
58. Assigning `contributor` does not move the account between groups; its contributions never count against the
    new contributor's room (`C102_not_counted`), and if the new contributor has no such account the account is
    unusable (`C102_unusable`).
59. `TaxMulti.tax_person` called with a person and a year alone raises `TypeError`, although calling the object, or
    its `tax_people`, gives the tax (`C106_person_alone_fails`); `accum` without a bracket and `deduction` never
    answer (`C106_accum`, `C106_first`).
60. The bracket returned by `TaxMulti.marginal_bracket` need not be a bracket: asking for its rate raises `KeyError`
    if the thresholds of the jurisdictions differ (`C106_marginal_bracket_has_no_rate`).
61. `TaxMulti.personal_deduction` is that of the first jurisdiction: somebody who earns exactly that much owes
    provincial tax (`C106_personal_deduction_is_taxed`). Timings are also set and read for the first jurisdiction
    only (`C106_payment_timing`).
62. `TaxCanada(payment_timing=...)`, which is documented, raises `TypeError` (the argument is given twice), and
    `high_precision` does not reach the jurisdictions' base class. (Read off the source; not modelled.)
63. When the rate of a debt falls from one year to the next, paying what `max_inflows` says at the end of the year
    overpays it: the balance becomes positive (`C107_falling_rate_refuted`).
64. `retirement_date = None` and `retirement_age = None` raise, but only after erasing the retirement date: the
    retirement age then reads 0 and an income that had stopped goes on (`C108_refused_none_erases`). The birth date is
    not checked against the retirement date (`C108_birth_date_unchecked`). A `Person(...)` that raises because of the
    tax treatment has already been tied to the spouse given (`C108_refused_after_the_wedding`).
65. `ValueReader.write` opens the file before it encodes the values: a failed `write` destroys the settings that were
    there (`C109_failed_write_destroys`), and passing a `ValueReader`, as documented, always fails so
    (`C109_reader_object_refuted`). A NaN is written but makes the file unreadable (`C109_nan_refuted`), a whole
    high-precision number comes back as an `int` (`C109_whole_numbers_refuted`). A file that holds a bare number or text
    makes `read` raise, but leaves the bare value in the reader, which no later `read` can then repair
    (`C58_bare_value_refuted`).
66. `DebtPaymentStrategy` documents that `available` may be a single amount: that always raises `AttributeError`
    (`C110_amount_refuted`). Without debts it raises for any amount worth distributing
    (`C110_no_debts_refuted`).
67. Linked TFSAs or RRSPs: only the transactions of the account that the forecast advances first are deducted from the
    shared room (`C112_tfsa_room`, `C112_rrsp_room`), so the result depends on the order of a set (`C112_order_refuted`) and
    the entitlement can be exceeded every year without end (`C112_lifetime_refuted`).
68. A TransactionStrategy's plan depends on the currency unit through the fixed precision EPSILON (C115_fixed_precision_refuted): strategy/transaction/strategy.py:337 passes no precision, so amounts of at most 0.00001 units are not distributed, whatever the unit is worth.
69. **A link cannot be compared with anything else** (C119). `AccountLink.__eq__` reads `other.owner` without checking: `link == None`, `link in [None]`, and looking up the plain tuple `(owner, token)` in a set of links raise `AttributeError` instead of answering no (`C119_foreign_objects`).
70. A forecast that goes beyond the retirement of everybody in the family cannot be made: living expenses are shared in proportion to net income, so the first year in which nobody has any raises `ZeroDivisionError` (C121_no_retirees).
71. **A family's tax can depend on memory addresses** (C124). of two spouses with the same net income, the one with the higher `id()` gets the spousal credit, and if that is more than this one owes the rest is lost, while the other could have used more of it (canada/tax.py:134-140; the comment calls this deterministic). Theorem `C124_addresses_refuted`: 500 or 515.

## Axioms each theorem depends on

Generated with `#print axioms` for every theorem in MANIFEST.json.

* **Classical.choice, Quot.sound, propext**: all 597 theorems of MANIFEST.json not listed below.
* **Quot.sound, propext** (104): `Forecaster.Timing.C01_timing_rejects`, `Forecaster.Timing.C07_add_subtract_laws`, `Forecaster.Ledger.C13_set_takes_effect`, `Forecaster.Ledger.C14_records_current_value`, `Forecaster.Ledger.C15_cached_stable`, `Forecaster.Account.C20_setitem_string_accumulates`, `Forecaster.Account.C20_clear`, `Forecaster.Link.C25_groups_are_independent_records`, `Forecaster.Link.C25_equal_links_agree`, `Forecaster.Link.C25_default_used_once`, `Forecaster.Link.C25_process_link`, `Forecaster.Link.C26_merge_transactions`, `Forecaster.Link.C27_inflow_setters`, `Forecaster.Link.C27_without_link`, `Forecaster.Link.C27_outflow_setters_write_inflow_limit`, `Forecaster.Tax.C28_brackets_needed`, `Forecaster.Tax.C32_multi_is_sum`, `Forecaster.Tax.C32_money_needs_deductions`, `Forecaster.Tax.C33_total_credit`, `Forecaster.Registered.C34_accrual_max`, `Forecaster.Registered.C35_accrual_before_eligible`, `Forecaster.Registered.C35_new_account_room`, `Forecaster.Taxable.C36_taxable_income`, `Forecaster.Taxable.C36_deletion_leaves_stale_gain`, `Forecaster.Person.C38_income_while_working`, `Forecaster.Person.C38_no_income_after_retirement`, `Forecaster.Person.C38_first_net_income_settled`, `Forecaster.Person.C38_raise_none_breaks`, `Forecaster.Allocation.C39_constructor`, `Forecaster.Expenses.C40_never_negative`, `Forecaster.Expenses.C40_percentage_of_income`, `Forecaster.Expenses.C40_schedule_switches_after_retirement`, `Forecaster.Expenses.C40_schedule_minimum`, `Forecaster.Expenses.C41_the_order_is_unique`, `Forecaster.Forecast.C45_next_year`, `Forecaster.Reader.C46_every_value_is_kept`, `Forecaster.Reader.C46_nothing_is_invented`, `Forecaster.Reader.C46_lengths`, `Forecaster.Reader.C46_clashing_keys_lose_a_value`, `Forecaster.Precision.C47_uncached_is_right`, `Forecaster.Precision.C47_cached_right_without_conversion`, `Forecaster.Precision.C47_cached_right_for_a_single_reader`, `Forecaster.Precision.C47_read_after_write`, `Forecaster.Builder.C48_terminates`, `Forecaster.Builder.C48_canada`, `Forecaster.Tax.C49_person_tax`, `Forecaster.Tax.C49_no_own_deductions`, `Forecaster.Tax.C49_calling`, `Forecaster.Tax.C50_canada_is_federal_plus_provincial`, `Forecaster.Tax.C50_call_changes_callers_dict`, `Forecaster.Registered.C53_conversion_year`, `Forecaster.Registered.C53_conversion_year_rejected`, `Forecaster.Registered.C53_min_outflow_limit`, `Forecaster.Registered.C53_no_withholding_table`, `Forecaster.Expenses.C56_empty_family_fails`, `Forecaster.Expenses.C56_constructor`, `Forecaster.Expenses.C56_names`, `Forecaster.Reader.C58_read_replaces_everything`, `Forecaster.Reader.C58_bare_value_refuted`, `Forecaster.Forecast.C61_principal`, `Forecaster.CashFlow.C62_figures`, `Forecaster.Shipped.C76_default_living_expenses_need_a_year`, `Forecaster.Copying.C80_any_numbers`, `Forecaster.Copying.C80_captured_refuted`, `Forecaster.Recorded.C82_reading_puts_on_record`, `Forecaster.Recorded.C82_add_transaction_changes_inputs`, `Forecaster.TxDict.C86_history_of_transactions_refuted`, `Forecaster.TxDict.C86_next_year_forgets_refuted`, `Forecaster.Recorded.C87_tax_error_stops_the_year`, `Forecaster.Errors.C89_no_tax_tables`, `Forecaster.Errors.C89_no_tax_tables_later`, `Forecaster.Errors.C89_empty_table`, `Forecaster.Errors.C89_deduction_per_person`, `Forecaster.Errors.C89_one_number_for_people`, `Forecaster.Errors.C89_no_jurisdictions`, `Forecaster.Errors.C89_inflation_adjust`, `Forecaster.Errors.C89_scenario`, `Forecaster.Errors.C89_no_accrual_maximum`, `Forecaster.Errors.C89_no_people`, `Forecaster.Decorated.C91_reserved_name_refuted`, `Forecaster.Opening.C101_clash`, `Forecaster.Tax.C106_people`, `Forecaster.Tax.C106_accum`, `Forecaster.Tax.C106_first`, `Forecaster.Tax.C106_payment_timing`, `Forecaster.Tax.C106_refund_timing`, `Forecaster.Person.C108_income_agrees`, `Forecaster.Calendar.C117_every_household`, `Forecaster.Link.C119_same_record`, `Forecaster.Link.C119_interchangeable`, `Forecaster.Link.C119_is_linked`, `Forecaster.Link.C119_constructor`, `Forecaster.Family.C120_sound`, `Forecaster.Family.C122_rrsp_withholds`, `Forecaster.Family.C123_one_spousal_credit`, `Forecaster.Person.C125_greater`, `Forecaster.Person.C125_not_comparable`, `Forecaster.Person.C125_unknown_income`, `Forecaster.Person.C125_max`, `Forecaster.Person.C125_min`, `Forecaster.Account.C128_order`, `Forecaster.Account.C128_parts`, `Forecaster.Account.C128_taken_back`, `Forecaster.Account.C128_rearrangements`.
* **propext** (12): `Forecaster.Person.C37_assignment`, `Forecaster.Person.C37_mutual`, `Forecaster.Person.C37_third_party_left_dangling`, `Forecaster.Person.C37_rejected_assignment_breaks_couple`, `Forecaster.Precision.C47_cached_leaks_between_objects`, `Forecaster.Builder.C48_shipped_tables`, `Forecaster.Reader.C57_high_precision_keys_cannot_be_written`, `Forecaster.TxDict.C86_rest_of_interface_refuted`, `Forecaster.Errors.C89_unknown_class`, `Forecaster.DebtPayment.C110_keys`, `Forecaster.Link.C119_equality`, `Forecaster.Link.C119_foreign_objects`.
* **none** (1): `Forecaster.TxDict.C86_number_clash_refuted`.
