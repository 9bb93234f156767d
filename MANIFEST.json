{
 "claims": [
  {
   "property": "C01",
   "status": "proved",
   "theorems": [
    "Forecaster.Timing.C01_timing_uniform",
    "Forecaster.Timing.C01_timing_strings",
    "Forecaster.Timing.C01_timing_rejects"
   ],
   "note": ""
  },
  {
   "property": "C02",
   "status": "proved",
   "theorems": [
    "Forecaster.Timing.C02_timing_of_dict"
   ],
   "note": ""
  },
  {
   "property": "C03",
   "status": "proved",
   "theorems": [
    "Forecaster.Timing.C03_net_inflow_timing"
   ],
   "note": ""
  },
  {
   "property": "C04",
   "status": "proved",
   "theorems": [
    "Forecaster.Timing.C04_net_outflow_timing"
   ],
   "note": ""
  },
  {
   "property": "C05",
   "status": "proved",
   "theorems": [
    "Forecaster.Timing.C05_split_conserves",
    "Forecaster.Timing.C05_weights_pos",
    "Forecaster.Timing.C05_balanced_timing_loses_money"
   ],
   "note": "Unconditional claim refuted: C05_balanced_timing_loses_money."
  },
  {
   "property": "C06",
   "status": "proved",
   "theorems": [
    "Forecaster.Timing.C06_normalized",
    "Forecaster.Timing.C06_time_series_keys",
    "Forecaster.Timing.C06_no_weight",
    "Forecaster.Timing.C06_normalized_keys"
   ],
   "note": ""
  },
  {
   "property": "C07",
   "status": "proved",
   "theorems": [
    "Forecaster.Timing.C07_add_subtract_pointwise",
    "Forecaster.Timing.C07_add_subtract_laws"
   ],
   "note": ""
  },
  {
   "property": "C08",
   "status": "proved",
   "theorems": [
    "Forecaster.Timing.C08_when_conv",
    "Forecaster.Timing.C08_frequency_conv"
   ],
   "note": ""
  },
  {
   "property": "C09",
   "status": "proved",
   "theorems": [
    "Forecaster.Inflation.C09_nearest_year"
   ],
   "note": ""
  },
  {
   "property": "C10",
   "status": "proved",
   "theorems": [
    "Forecaster.Inflation.C10_adjust_composes",
    "Forecaster.Inflation.C10_extend"
   ],
   "note": ""
  },
  {
   "property": "C11",
   "status": "proved",
   "theorems": [
    "Forecaster.Inflation.C11_accumulation_composes",
    "Forecaster.Inflation.C11_accumulation_year",
    "Forecaster.Inflation.C11_scenario_years",
    "Forecaster.Inflation.C11_inflation_adjust",
    "Forecaster.Inflation.C11_inflation_adjustments_inverted"
   ],
   "note": ""
  },
  {
   "property": "C12",
   "status": "proved",
   "theorems": [
    "Forecaster.Ledger.C12_history_gap_free",
    "Forecaster.Recorded.C12_system_gap_free"
   ],
   "note": ""
  },
  {
   "property": "C13",
   "status": "proved",
   "theorems": [
    "Forecaster.Ledger.C13_inputs_never_overwritten",
    "Forecaster.Ledger.C13_set_takes_effect",
    "Forecaster.Recorded.C13_system_inputs",
    "Forecaster.Recorded.C13_system_history"
   ],
   "note": ""
  },
  {
   "property": "C14",
   "status": "proved",
   "theorems": [
    "Forecaster.Ledger.C14_past_immutable",
    "Forecaster.Ledger.C14_records_current_value",
    "Forecaster.Recorded.C14_system_past_immutable"
   ],
   "note": ""
  },
  {
   "property": "C15",
   "status": "proved",
   "theorems": [
    "Forecaster.Ledger.C15_cached_stable",
    "Forecaster.Ledger.C15_assign",
    "Forecaster.Ledger.C15_fresh_after_next_year",
    "Forecaster.Recorded.C15_system_cached_stable",
    "Forecaster.Recorded.C15_system_assign"
   ],
   "note": ""
  },
  {
   "property": "C16",
   "status": "proved",
   "theorems": [
    "Forecaster.Accum.C16_exponential_law",
    "Forecaster.Accum.C16_one_year",
    "Forecaster.Accum.C16_monotone_time",
    "Forecaster.Accum.C16_monotone_rate",
    "Forecaster.Accum.C16_compounding_bounds",
    "Forecaster.Accum.C16_value_at_time"
   ],
   "note": ""
  },
  {
   "property": "C17",
   "status": "proved",
   "theorems": [
    "Forecaster.Accum.C17_time_to_value_of_value",
    "Forecaster.Accum.C17_value_of_time_to_value",
    "Forecaster.Accum.C17_inverse_domain",
    "Forecaster.Accum.C17_time_to_value_edges",
    "Forecaster.Accum.C17_value_at_time_roundtrip"
   ],
   "note": ""
  },
  {
   "property": "C18",
   "status": "proved",
   "theorems": [
    "Forecaster.Account.C18_accumulation_is_growth",
    "Forecaster.Account.C18_balance_at_time",
    "Forecaster.Account.C18_effect_of_transaction",
    "Forecaster.Account.C18_extra_transactions",
    "Forecaster.Account.C18_growth_between",
    "Forecaster.Account.C18_returns_reconcile",
    "Forecaster.Account.C18_taxable_income"
   ],
   "note": ""
  },
  {
   "property": "C19",
   "status": "proved",
   "theorems": [
    "Forecaster.Account.C19_closing_balance_carries_over",
    "Forecaster.Account.C19_next_balance_uses_new_rate",
    "Forecaster.Account.C19_rate_change_regrows_last_year",
    "Forecaster.Account.C19_compound_growth"
   ],
   "note": "Exact value proved for any rates (C19_next_balance_uses_new_rate); the unconditional claim is refuted (C19_rate_change_regrows_last_year)."
  },
  {
   "property": "C20",
   "status": "proved",
   "theorems": [
    "Forecaster.Account.C20_add_transaction",
    "Forecaster.Account.C20_inflows_outflows",
    "Forecaster.Account.C20_next_year",
    "Forecaster.Account.C20_past_is_fixed",
    "Forecaster.Account.C20_setitem_number",
    "Forecaster.Account.C20_setitem_string_accumulates",
    "Forecaster.Account.C20_delitem",
    "Forecaster.Account.C20_clear"
   ],
   "note": ""
  },
  {
   "property": "C21",
   "status": "proved",
   "theorems": [
    "Forecaster.Account.C21_timing_used",
    "Forecaster.Account.C21_transactions_to_balance",
    "Forecaster.Account.C21_limited_total"
   ],
   "note": ""
  },
  {
   "property": "C22",
   "status": "proved",
   "theorems": [
    "Forecaster.Account.C22_max_outflows",
    "Forecaster.Account.C22_plain_account_emptied",
    "Forecaster.Account.C22_max_outflow",
    "Forecaster.Account.C22_max_outflows_monotone"
   ],
   "note": ""
  },
  {
   "property": "C23",
   "status": "proved",
   "theorems": [
    "Forecaster.Account.C23_max_inflows_balance_limit",
    "Forecaster.Account.C23_max_inflows",
    "Forecaster.Account.C23_min_inflows",
    "Forecaster.Account.C23_min_outflows",
    "Forecaster.Account.C23_min_le_max_inflows",
    "Forecaster.Account.C23_min_le_max_outflows",
    "Forecaster.Account.C23_plain_account"
   ],
   "note": ""
  },
  {
   "property": "C24",
   "status": "proved",
   "theorems": [
    "Forecaster.Account.C24_debt_balance_nonpos",
    "Forecaster.Account.C24_payments_never_overpay",
    "Forecaster.Account.C24_unlimited_acceleration_pays_off",
    "Forecaster.Account.C24_no_min_withdrawals",
    "Forecaster.Account.C24_no_withdrawals",
    "Forecaster.Account.C24_max_inflow"
   ],
   "note": ""
  },
  {
   "property": "C25",
   "status": "proved",
   "theorems": [
    "Forecaster.Link.C25_groups_are_independent_records",
    "Forecaster.Link.C25_equal_links_agree",
    "Forecaster.Link.C25_default_used_once",
    "Forecaster.Link.C25_errors",
    "Forecaster.Link.C25_process_link"
   ],
   "note": ""
  },
  {
   "property": "C26",
   "status": "proved",
   "theorems": [
    "Forecaster.Link.C26_merge_transactions",
    "Forecaster.Link.C26_shared_room_not_exceeded",
    "Forecaster.Link.C26_offsetting_flows_reopen_room"
   ],
   "note": "Proved exactly under the proviso in the statement; refuted without it (C26_offsetting_flows_reopen_room)."
  },
  {
   "property": "C27",
   "status": "proved",
   "theorems": [
    "Forecaster.Link.C27_inflow_setters",
    "Forecaster.Link.C27_without_link",
    "Forecaster.Link.C27_outflow_setters_write_inflow_limit"
   ],
   "note": "Inflow setters proved right; what the outflow setters do is proved for every state (C27_outflow_setters_write_inflow_limit)."
  },
  {
   "property": "C28",
   "status": "proved",
   "theorems": [
    "Forecaster.Tax.C28_brackets_needed",
    "Forecaster.Tax.C28_tax_is_bracket_sum",
    "Forecaster.Tax.C28_tax_is_bracket_sum'",
    "Forecaster.Tax.C28_zero_below_lowest",
    "Forecaster.Tax.C28_monotone",
    "Forecaster.Tax.C28_lipschitz",
    "Forecaster.Tax.C28_convex"
   ],
   "note": ""
  },
  {
   "property": "C29",
   "status": "proved",
   "theorems": [
    "Forecaster.Tax.C29_marginal_bracket",
    "Forecaster.Tax.C29_marginal_rate"
   ],
   "note": ""
  },
  {
   "property": "C30",
   "status": "proved",
   "theorems": [
    "Forecaster.Tax.C30_history_independent",
    "Forecaster.Tax.C30_table",
    "Forecaster.Tax.C30_deduction_and_credit_rate",
    "Forecaster.Tax.C30_accum_poisons_cache"
   ],
   "note": "accum() may only be asked for years with given tables; otherwise refuted (C30_accum_poisons_cache)."
  },
  {
   "property": "C31",
   "status": "proved",
   "theorems": [
    "Forecaster.Tax.C31_household_is_sum",
    "Forecaster.Tax.C31_calling",
    "Forecaster.Tax.C31_order_irrelevant"
   ],
   "note": ""
  },
  {
   "property": "C32",
   "status": "proved",
   "theorems": [
    "Forecaster.Tax.C32_multi_is_sum",
    "Forecaster.Tax.C32_marginal_rate",
    "Forecaster.Tax.C32_combined_brackets_are_zero",
    "Forecaster.Tax.C32_money_is_sum",
    "Forecaster.Tax.C32_money_needs_deductions"
   ],
   "note": ""
  },
  {
   "property": "C33",
   "status": "proved",
   "theorems": [
    "Forecaster.Tax.C33_pension_credit",
    "Forecaster.Tax.C33_spousal_credit",
    "Forecaster.Tax.C33_spousal_credit_exceeds_amount",
    "Forecaster.Tax.C33_total_credit"
   ],
   "note": ""
  },
  {
   "property": "C34",
   "status": "proved",
   "theorems": [
    "Forecaster.Registered.C34_next_room",
    "Forecaster.Registered.C34_accrual_max",
    "Forecaster.Registered.C34_no_room_past_conversion_age",
    "Forecaster.Registered.C34_room_not_negative",
    "Forecaster.Registered.C34_room_conserved",
    "Forecaster.Registered.C34_linked_contributions_forgotten",
    "Forecaster.Registered.C34_early_conversion_keeps_accruing",
    "Forecaster.Registered.C34_taxable_and_deductible"
   ],
   "note": ""
  },
  {
   "property": "C35",
   "status": "proved",
   "theorems": [
    "Forecaster.Registered.C35_round_nearest",
    "Forecaster.Registered.C35_round_half_even",
    "Forecaster.Registered.C35_accrual_whole_units",
    "Forecaster.Registered.C35_accrual_before_eligible",
    "Forecaster.Registered.C35_accrues_a_year_early",
    "Forecaster.Registered.C35_accrual_falls_as_prices_rise",
    "Forecaster.Registered.C35_next_room",
    "Forecaster.Registered.C35_linked_contributions_forgotten",
    "Forecaster.Registered.C35_room_conserved",
    "Forecaster.Registered.C35_initial_room",
    "Forecaster.Registered.C35_initial_room_from_inputs",
    "Forecaster.Registered.C35_new_account_room",
    "Forecaster.Registered.C35_future_inputs_rejected"
   ],
   "note": ""
  },
  {
   "property": "C36",
   "status": "proved",
   "theorems": [
    "Forecaster.Taxable.C36_gain_is_proceeds_minus_cost",
    "Forecaster.Taxable.C36_lifetime_gains",
    "Forecaster.Taxable.C36_gain_is_current",
    "Forecaster.Taxable.C36_next_cost_base_is_current",
    "Forecaster.Taxable.C36_cost_base_never_negative",
    "Forecaster.Taxable.C36_contribution",
    "Forecaster.Taxable.C36_withdrawal",
    "Forecaster.Taxable.C36_emptying",
    "Forecaster.Taxable.C36_no_losses",
    "Forecaster.Taxable.C36_order_of_entry_irrelevant",
    "Forecaster.Taxable.C36_taxable_income",
    "Forecaster.Taxable.C36_clear_leaves_stale_gain",
    "Forecaster.Taxable.C36_deletion_leaves_stale_gain"
   ],
   "note": "Includes the refutation C36_clear_leaves_stale_gain."
  },
  {
   "property": "C37",
   "status": "proved",
   "theorems": [
    "Forecaster.Person.C37_assignment",
    "Forecaster.Person.C37_mutual",
    "Forecaster.Person.C37_third_party_left_dangling",
    "Forecaster.Person.C37_rejected_assignment_breaks_couple"
   ],
   "note": "Proved under the two provisos in the statement; each proviso is shown necessary by a refutation."
  },
  {
   "property": "C38",
   "status": "proved",
   "theorems": [
    "Forecaster.Person.C38_age_whole_years",
    "Forecaster.Person.C38_age_defined_iff",
    "Forecaster.Person.C38_age_monotone",
    "Forecaster.Person.C38_age_next_year",
    "Forecaster.Person.C38_age_in_year",
    "Forecaster.Person.C38_leap_years",
    "Forecaster.Person.C38_month_lengths",
    "Forecaster.Person.C38_gross_income",
    "Forecaster.Person.C38_gross_income_readable",
    "Forecaster.Person.C38_income_while_working",
    "Forecaster.Person.C38_no_income_after_retirement",
    "Forecaster.Person.C38_net_income",
    "Forecaster.Person.C38_first_net_income_settled",
    "Forecaster.Person.C38_raise_none_breaks"
   ],
   "note": ""
  },
  {
   "property": "C39",
   "status": "proved",
   "theorems": [
    "Forecaster.Allocation.C39_sums_to_one_within_limits",
    "Forecaster.Allocation.C39_no_negative_share",
    "Forecaster.Allocation.C39_stocks_follow_the_formula",
    "Forecaster.Allocation.C39_retirement_age_needed",
    "Forecaster.Allocation.C39_fails_exactly_at_all_stocks",
    "Forecaster.Allocation.C39_older_never_more_stocks",
    "Forecaster.Allocation.C39_transition_ends",
    "Forecaster.Allocation.C39_constructor",
    "Forecaster.Allocation.C39_rebalancing_down",
    "Forecaster.Allocation.C39_rebalancing_up"
   ],
   "note": ""
  },
  {
   "property": "C40",
   "status": "proved",
   "theorems": [
    "Forecaster.Expenses.C40_never_negative",
    "Forecaster.Expenses.C40_constant_contribution",
    "Forecaster.Expenses.C40_constant_in_real_terms",
    "Forecaster.Expenses.C40_percentage_of_income",
    "Forecaster.Expenses.C40_monotone_in_the_rate",
    "Forecaster.Expenses.C40_earnings_growth_in_between",
    "Forecaster.Expenses.C40_joint_accounts_count_once",
    "Forecaster.Expenses.C40_fixed_at_retirement",
    "Forecaster.Expenses.C40_schedule_switches_after_retirement",
    "Forecaster.Expenses.C40_schedule_minimum"
   ],
   "note": ""
  },
  {
   "property": "C41",
   "status": "proved",
   "theorems": [
    "Forecaster.Expenses.C41_avalanche",
    "Forecaster.Expenses.C41_snowball",
    "Forecaster.Expenses.C41_the_order_is_unique"
   ],
   "note": ""
  },
  {
   "property": "C42",
   "status": "proved",
   "theorems": [
    "Forecaster.Traversal.C42_inflows_total",
    "Forecaster.Traversal.C42_inflows_account",
    "Forecaster.Traversal.C42_inflows_group",
    "Forecaster.Traversal.C42_inflows_node",
    "Forecaster.Traversal.C42_outflows_total",
    "Forecaster.Traversal.C42_min_outflows_not_assigned",
    "Forecaster.Traversal.C42_outflows_account",
    "Forecaster.Traversal.C42_outflows_group",
    "Forecaster.Traversal.C42_outflows_node",
    "Forecaster.Traversal.C42_nothing",
    "Forecaster.Traversal.C42_accounts_answer"
   ],
   "note": ""
  },
  {
   "property": "C43",
   "status": "proved",
   "theorems": [
    "Forecaster.SubForecast.C43_transfer",
    "Forecaster.SubForecast.C43_never_early",
    "Forecaster.SubForecast.C43_books_balance",
    "Forecaster.SubForecast.C43_record_matches",
    "Forecaster.SubForecast.C43_just_in_time"
   ],
   "note": ""
  },
  {
   "property": "C44",
   "status": "proved",
   "theorems": [
    "Forecaster.SubForecast.C44_undo",
    "Forecaster.SubForecast.C44_second_call",
    "Forecaster.SubForecast.C44_next_year",
    "Forecaster.SubForecast.C44_third_call_refuted"
   ],
   "note": ""
  },
  {
   "property": "C45",
   "status": "proved",
   "theorems": [
    "Forecaster.Forecast.C45_next_year",
    "Forecaster.Forecast.C45_carryover",
    "Forecaster.Forecast.C45_run",
    "Forecaster.Forecast.C45_every_dollar",
    "Forecaster.Forecast.C45_schedule",
    "Forecaster.Forecast.C45_completes"
   ],
   "note": ""
  },
  {
   "property": "C46",
   "status": "proved",
   "theorems": [
    "Forecaster.Reader.C46_every_value_is_kept",
    "Forecaster.Reader.C46_nothing_is_invented",
    "Forecaster.Reader.C46_lengths",
    "Forecaster.Reader.C46_idempotent",
    "Forecaster.Reader.C46_text_is_unchanged",
    "Forecaster.Reader.C46_clashing_keys_lose_a_value"
   ],
   "note": ""
  },
  {
   "property": "C47",
   "status": "proved",
   "theorems": [
    "Forecaster.Precision.C47_uncached_is_right",
    "Forecaster.Precision.C47_cached_right_without_conversion",
    "Forecaster.Precision.C47_cached_right_for_a_single_reader",
    "Forecaster.Precision.C47_read_after_write",
    "Forecaster.Precision.C47_cached_leaks_between_objects"
   ],
   "note": ""
  },
  {
   "property": "C48",
   "status": "proved",
   "theorems": [
    "Forecaster.Builder.C48_explicit",
    "Forecaster.Builder.C48_shared",
    "Forecaster.Builder.C48_explicit_arguments",
    "Forecaster.Builder.C48_nothing_changed",
    "Forecaster.Builder.C48_set_param",
    "Forecaster.Builder.C48_run",
    "Forecaster.Builder.C48_terminates",
    "Forecaster.Builder.C48_shipped_tables",
    "Forecaster.Builder.C48_same_inflation",
    "Forecaster.Builder.C48_build_allocation_strategy_refuted",
    "Forecaster.Builder.C48_canada"
   ],
   "note": ""
  },
  {
   "property": "C49",
   "status": "proved",
   "theorems": [
    "Forecaster.Tax.C49_person_tax",
    "Forecaster.Tax.C49_no_own_deductions",
    "Forecaster.Tax.C49_calling",
    "Forecaster.Tax.C49_own_deductions_count_twice"
   ],
   "note": "Exact formula for every person; the claim that each counts once is refuted (C49_own_deductions_count_twice)."
  },
  {
   "property": "C50",
   "status": "proved",
   "theorems": [
    "Forecaster.Tax.C50_canada_is_federal_plus_provincial",
    "Forecaster.Tax.C50_call_changes_callers_dict"
   ],
   "note": ""
  },
  {
   "property": "C51",
   "status": "proved",
   "theorems": [
    "Forecaster.Person.C51_retirement_date",
    "Forecaster.Person.C51_retirement_age_round_trip",
    "Forecaster.Person.C51_retirement_age_zero",
    "Forecaster.Person.C51_retirement_age_negative",
    "Forecaster.Person.C51_retirement_age_monotone"
   ],
   "note": ""
  },
  {
   "property": "C52",
   "status": "proved",
   "theorems": [
    "Forecaster.Registered.C52_lockstep",
    "Forecaster.Registered.C52_catch_up",
    "Forecaster.Registered.C52_always_in_step",
    "Forecaster.Registered.C52_input_room_is_not_enforced"
   ],
   "note": ""
  },
  {
   "property": "C53",
   "status": "proved",
   "theorems": [
    "Forecaster.Registered.C53_conversion_year",
    "Forecaster.Registered.C53_conversion_year_rejected",
    "Forecaster.Registered.C53_minimum_distribution",
    "Forecaster.Registered.C53_minimum_distribution_range",
    "Forecaster.Registered.C53_min_outflow_limit",
    "Forecaster.Registered.C53_no_withholding_table",
    "Forecaster.Registered.C53_withholding_bracket",
    "Forecaster.Registered.C53_withholding_bounds",
    "Forecaster.Registered.C53_withholding_monotone",
    "Forecaster.Registered.C53_withheld_before_conversion",
    "Forecaster.Registered.C53_rrif_minimum_is_taxed_not_exempt"
   ],
   "note": ""
  },
  {
   "property": "C54",
   "status": "proved",
   "theorems": [
    "Forecaster.Registered.C54_alias_args"
   ],
   "note": ""
  },
  {
   "property": "C55",
   "status": "proved",
   "theorems": [
    "Forecaster.Allocation.C55_weighted_average",
    "Forecaster.Allocation.C55_between_the_returns",
    "Forecaster.Allocation.C55_older_never_earns_more",
    "Forecaster.Allocation.C55_fails_with_the_allocation"
   ],
   "note": ""
  },
  {
   "property": "C56",
   "status": "proved",
   "theorems": [
    "Forecaster.Expenses.C56_empty_family_fails",
    "Forecaster.Expenses.C56_account_opened_after_retirement",
    "Forecaster.Expenses.C56_otherwise_defined",
    "Forecaster.Expenses.C56_constructor",
    "Forecaster.Expenses.C56_names"
   ],
   "note": ""
  },
  {
   "property": "C57",
   "status": "proved",
   "theorems": [
    "Forecaster.Reader.C57_round_trip",
    "Forecaster.Reader.C57_file_contents",
    "Forecaster.Reader.C57_mixed_keys_cannot_be_written",
    "Forecaster.Reader.C57_high_precision_keys_cannot_be_written"
   ],
   "note": ""
  },
  {
   "property": "C58",
   "status": "proved",
   "theorems": [
    "Forecaster.Reader.C58_attribute_values",
    "Forecaster.Reader.C58_no_dict",
    "Forecaster.Reader.C58_bare_text",
    "Forecaster.Reader.C58_bare_list",
    "Forecaster.Reader.C58_delete_always_raises",
    "Forecaster.Reader.C58_read_replaces_everything",
    "Forecaster.Reader.C58_bare_value_refuted"
   ],
   "note": ""
  },
  {
   "property": "C59",
   "status": "proved",
   "theorems": [
    "Forecaster.SubForecast.C59_date_between",
    "Forecaster.SubForecast.C59_account_source",
    "Forecaster.SubForecast.C59_growth_refuted"
   ],
   "note": ""
  },
  {
   "property": "C60",
   "status": "proved",
   "theorems": [
    "Forecaster.SubForecast.C60_time_to_balance",
    "Forecaster.SubForecast.C60_terminates",
    "Forecaster.SubForecast.C60_documentation_refuted"
   ],
   "note": ""
  },
  {
   "property": "C61",
   "status": "proved",
   "theorems": [
    "Forecaster.Forecast.C61_retirement_year",
    "Forecaster.Forecast.C61_nobody_retires",
    "Forecaster.Forecast.C61_savings",
    "Forecaster.Forecast.C61_principal"
   ],
   "note": ""
  },
  {
   "property": "C62",
   "status": "proved",
   "theorems": [
    "Forecaster.CashFlow.C62_income",
    "Forecaster.CashFlow.C62_figures"
   ],
   "note": ""
  },
  {
   "property": "C63",
   "status": "proved",
   "theorems": [
    "Forecaster.CashFlow.C63_living_expenses",
    "Forecaster.CashFlow.C63_shares",
    "Forecaster.CashFlow.C63_no_income",
    "Forecaster.CashFlow.C63_first_retirement"
   ],
   "note": ""
  },
  {
   "property": "C64",
   "status": "proved",
   "theorems": [
    "Forecaster.CashFlow.C64_saving",
    "Forecaster.CashFlow.C64_figures",
    "Forecaster.CashFlow.C64_debt_repayment_refuted",
    "Forecaster.CashFlow.C64_saving_succeeds"
   ],
   "note": ""
  },
  {
   "property": "C65",
   "status": "proved",
   "theorems": [
    "Forecaster.CashFlow.C65_withdrawal",
    "Forecaster.CashFlow.C65_figures",
    "Forecaster.CashFlow.C65_rerun",
    "Forecaster.CashFlow.C65_failed_rerun",
    "Forecaster.CashFlow.C65_failed_plan",
    "Forecaster.CashFlow.C65_withholding_refuted",
    "Forecaster.CashFlow.C65_next_year_refuted"
   ],
   "note": ""
  },
  {
   "property": "C66",
   "status": "proved",
   "theorems": [
    "Forecaster.CashFlow.C66_tax_withheld"
   ],
   "note": ""
  },
  {
   "property": "C67",
   "status": "proved",
   "theorems": [
    "Forecaster.CashFlow.C67_year"
   ],
   "note": ""
  },
  {
   "property": "C68",
   "status": "proved",
   "theorems": [
    "Forecaster.Traversal.C68_inflows_in_order",
    "Forecaster.Traversal.C68_inflows_greedy",
    "Forecaster.Traversal.C68_inflows_priority",
    "Forecaster.Traversal.C68_outflows_in_order",
    "Forecaster.Traversal.C68_accounts_exact"
   ],
   "note": ""
  },
  {
   "property": "C69",
   "status": "proved",
   "theorems": [
    "Forecaster.Traversal.C69_weighted_inflows",
    "Forecaster.Traversal.C69_weighted_outflows",
    "Forecaster.Traversal.C69_nested_priority_refuted",
    "Forecaster.Traversal.C69_outflow_limit_refuted",
    "Forecaster.Traversal.C69_excess_refuted"
   ],
   "note": ""
  },
  {
   "property": "C70",
   "status": "proved",
   "theorems": [
    "Forecaster.Traversal.C70_inflows_in_order",
    "Forecaster.Traversal.C70_outflows_in_order",
    "Forecaster.Traversal.C70_nothing_left_over",
    "Forecaster.Traversal.C70_by_penalty",
    "Forecaster.Traversal.C70_same_list"
   ],
   "note": ""
  },
  {
   "property": "C71",
   "status": "proved",
   "theorems": [
    "Forecaster.TxStrategy.C71_constructor",
    "Forecaster.TxStrategy.C71_tree",
    "Forecaster.TxStrategy.C71_defined",
    "Forecaster.TxStrategy.C71_accounts",
    "Forecaster.TxStrategy.C71_debt_order_refuted",
    "Forecaster.TxStrategy.C71_no_threshold_refuted"
   ],
   "note": ""
  },
  {
   "property": "C72",
   "status": "proved",
   "theorems": [
    "Forecaster.TxStrategy.C72_ordered_inflows",
    "Forecaster.TxStrategy.C72_ordered_outflows",
    "Forecaster.TxStrategy.C72_weighted_inflows",
    "Forecaster.TxStrategy.C72_weighted_outflows",
    "Forecaster.TxStrategy.C72_debts_between_refuted"
   ],
   "note": ""
  },
  {
   "property": "C73",
   "status": "proved",
   "theorems": [
    "Forecaster.Defaults.C73_defined",
    "Forecaster.Defaults.C73_base",
    "Forecaster.Defaults.C73_canada_saving",
    "Forecaster.Defaults.C73_canada_withdrawal",
    "Forecaster.Defaults.C73_taxable_withdrawals_refuted",
    "Forecaster.Defaults.C73_debt_payments_refuted"
   ],
   "note": ""
  },
  {
   "property": "C74",
   "status": "proved",
   "theorems": [
    "Forecaster.Builder.C74_conversion",
    "Forecaster.Builder.C74_infinite_refuted",
    "Forecaster.Builder.C74_large_integers_refuted"
   ],
   "note": ""
  },
  {
   "property": "C75",
   "status": "proved",
   "theorems": [
    "Forecaster.Shipped.C75_tax_of_a_single",
    "Forecaster.Shipped.C75_tax_with_a_spouse",
    "Forecaster.Shipped.C75_can_be_built",
    "Forecaster.Shipped.C75_extra_income",
    "Forecaster.Shipped.C75_free_amount_and_top_rate"
   ],
   "note": ""
  },
  {
   "property": "C76",
   "status": "proved",
   "theorems": [
    "Forecaster.Shipped.C76_default_scenario",
    "Forecaster.Shipped.C76_default_return",
    "Forecaster.Shipped.C76_rate_of_year",
    "Forecaster.Shipped.C76_default_living_expenses",
    "Forecaster.Shipped.C76_default_living_expenses_need_a_year",
    "Forecaster.Shipped.C76_default_tax"
   ],
   "note": ""
  },
  {
   "property": "C77",
   "status": "proved",
   "theorems": [
    "Forecaster.Shipped.C77_rrif_minimum",
    "Forecaster.Shipped.C77_rrif_share_grows",
    "Forecaster.Shipped.C77_withholding",
    "Forecaster.Shipped.C77_withdrawing_more_may_leave_less",
    "Forecaster.Shipped.C77_rrsp_room",
    "Forecaster.Shipped.C77_tfsa_room"
   ],
   "note": ""
  },
  {
   "property": "C78",
   "status": "proved",
   "theorems": [
    "Forecaster.Link.C78_as_if_pooled",
    "Forecaster.Link.C78_unlinked",
    "Forecaster.Link.C78_shared_limit_not_exceeded",
    "Forecaster.Link.C78_linked_account_overdrawn",
    "Forecaster.Link.C78_linked_account_blocked"
   ],
   "note": ""
  },
  {
   "property": "C79",
   "status": "proved",
   "theorems": [
    "Forecaster.Household.C79_strategies_wealth",
    "Forecaster.Household.C79_keeps_time",
    "Forecaster.Household.C79_year",
    "Forecaster.Household.C79_new_year",
    "Forecaster.Household.C79_run",
    "Forecaster.Household.C79_cash",
    "Forecaster.Household.C79_wealth",
    "Forecaster.Household.C79_report",
    "Forecaster.Household.C79_withholding_refuted",
    "Forecaster.Household.C79_reported_savings_refuted",
    "Forecaster.Household.C79_prudent_cash",
    "Forecaster.Household.C79_prudent_report",
    "Forecaster.Household.C79_prudent_wealth"
   ],
   "note": ""
  },
  {
   "property": "C80",
   "status": "proved",
   "theorems": [
    "Forecaster.Copying.C80_copies",
    "Forecaster.Copying.C80_nothing_changed",
    "Forecaster.Copying.C80_completes",
    "Forecaster.Copying.C80_any_numbers",
    "Forecaster.Copying.C80_again",
    "Forecaster.Copying.C80_captured_refuted"
   ],
   "note": ""
  },
  {
   "property": "C81",
   "status": "proved",
   "theorems": [
    "Forecaster.Recorded.C81_reading_changes_no_value",
    "Forecaster.Recorded.C81_order_of_reading",
    "Forecaster.Recorded.C81_next_year_completes",
    "Forecaster.Recorded.C81_order_of_recording",
    "Forecaster.Recorded.C81_records_the_values",
    "Forecaster.Recorded.C81_other_objects"
   ],
   "note": ""
  },
  {
   "property": "C82",
   "status": "proved",
   "theorems": [
    "Forecaster.Recorded.C82_without_inputs",
    "Forecaster.Recorded.C82_recorded_balances",
    "Forecaster.Recorded.C82_new_person",
    "Forecaster.Recorded.C82_account_figures",
    "Forecaster.Recorded.C82_person_figures",
    "Forecaster.Recorded.C82_reading_puts_on_record",
    "Forecaster.Recorded.C82_clear_cache_loses_balance",
    "Forecaster.Recorded.C82_add_transaction_changes_inputs"
   ],
   "note": ""
  },
  {
   "property": "C83",
   "status": "proved",
   "theorems": [
    "Forecaster.Recorded.C83_year_end",
    "Forecaster.Recorded.C83_stale_deduction_refuted",
    "Forecaster.Recorded.C83_accounts_first_refuted",
    "Forecaster.Recorded.C83_owner_not_left_behind"
   ],
   "note": ""
  },
  {
   "property": "C84",
   "status": "proved",
   "theorems": [
    "Forecaster.Owners.C84_mutual",
    "Forecaster.Owners.C84_one_owner",
    "Forecaster.Owners.C84_assignment",
    "Forecaster.Owners.C84_rejected_assignment"
   ],
   "note": ""
  },
  {
   "property": "C85",
   "status": "proved",
   "theorems": [
    "Forecaster.Mapping.C85_iteration",
    "Forecaster.Mapping.C85_membership",
    "Forecaster.Mapping.C85_lookups_harmless",
    "Forecaster.Mapping.C85_text_key",
    "Forecaster.Mapping.C85_text_stuck",
    "Forecaster.Mapping.C85_out_of_range"
   ],
   "note": ""
  },
  {
   "property": "C86",
   "status": "proved",
   "theorems": [
    "Forecaster.TxDict.C86_keyed_by_identity",
    "Forecaster.TxDict.C86_items_show_ids",
    "Forecaster.TxDict.C86_keys_stay_alive",
    "Forecaster.TxDict.C86_rest_of_interface_refuted",
    "Forecaster.TxDict.C86_hashable_interface",
    "Forecaster.TxDict.C86_number_clash_refuted",
    "Forecaster.TxDict.C86_history_of_transactions_refuted",
    "Forecaster.TxDict.C86_next_year_forgets_refuted"
   ],
   "note": ""
  },
  {
   "property": "C87",
   "status": "proved",
   "theorems": [
    "Forecaster.Recorded.C87_year_on_record",
    "Forecaster.Recorded.C87_records_agree",
    "Forecaster.Recorded.C87_what_a_look_records",
    "Forecaster.Recorded.C87_account_brings_owner",
    "Forecaster.Recorded.C87_tax_error_stops_the_year",
    "Forecaster.Recorded.C87_early_look_refuted",
    "Forecaster.Recorded.C87_half_closed_refuted",
    "Forecaster.Recorded.C87_debt_repayment_refuted"
   ],
   "note": ""
  },
  {
   "property": "C88",
   "status": "proved",
   "theorems": [
    "Forecaster.Traversal.C88_recursion_limit",
    "Forecaster.Traversal.C88_inflows_end",
    "Forecaster.Traversal.C88_outflows_end",
    "Forecaster.Traversal.C88_solver_exists",
    "Forecaster.Traversal.C88_accounts_willing",
    "Forecaster.Traversal.C88_inflows_filled",
    "Forecaster.Traversal.C88_zero_weight_refuted",
    "Forecaster.Traversal.C88_minimum_outflow_refuted",
    "Forecaster.Traversal.C88_example"
   ],
   "note": ""
  },
  {
   "property": "C89",
   "status": "proved",
   "theorems": [
    "Forecaster.Errors.C89_no_tax_tables",
    "Forecaster.Errors.C89_no_tax_tables_later",
    "Forecaster.Errors.C89_empty_table",
    "Forecaster.Errors.C89_deduction_per_person",
    "Forecaster.Errors.C89_one_number_for_people",
    "Forecaster.Errors.C89_credit_rate",
    "Forecaster.Errors.C89_no_jurisdictions",
    "Forecaster.Errors.C89_inflation_adjust",
    "Forecaster.Errors.C89_inflation_adjust_call",
    "Forecaster.Errors.C89_scenario",
    "Forecaster.Errors.C89_no_accrual_maximum",
    "Forecaster.Errors.C89_unknown_parameter",
    "Forecaster.Errors.C89_unknown_class",
    "Forecaster.Errors.C89_no_people"
   ],
   "note": ""
  },
  {
   "property": "C90",
   "status": "proved",
   "theorems": [
    "Forecaster.TxStrategy.C90_recursion_depth",
    "Forecaster.TxStrategy.C90_decides",
    "Forecaster.TxStrategy.C90_small_change",
    "Forecaster.TxStrategy.C90_no_accounts_refuted",
    "Forecaster.TxStrategy.C90_only_debts_refuted"
   ],
   "note": ""
  },
  {
   "property": "C91",
   "status": "proved",
   "theorems": [
    "Forecaster.Decorated.C91_name",
    "Forecaster.Decorated.C91_read",
    "Forecaster.Decorated.C91_set",
    "Forecaster.Decorated.C91_delete",
    "Forecaster.Decorated.C91_history",
    "Forecaster.Decorated.C91_order",
    "Forecaster.Decorated.C91_ledger_model",
    "Forecaster.Decorated.C91_reserved_name_refuted",
    "Forecaster.Decorated.C91_renamed_setter"
   ],
   "note": ""
  },
  {
   "property": "C92",
   "status": "proved",
   "theorems": [
    "Forecaster.Discovery.C92_recorded",
    "Forecaster.Discovery.C92_history",
    "Forecaster.Discovery.C92_still_visible",
    "Forecaster.Discovery.C92_instance",
    "Forecaster.Discovery.C92_read",
    "Forecaster.Discovery.C92_hidden_refuted",
    "Forecaster.Discovery.C92_shipped_orderly",
    "Forecaster.Discovery.C92_rrsp_records"
   ],
   "note": ""
  },
  {
   "property": "C93",
   "status": "proved",
   "theorems": [
    "Forecaster.Discovery.C93_keys",
    "Forecaster.Discovery.C93_runs",
    "Forecaster.Discovery.C93_made_can_be_called",
    "Forecaster.Discovery.C93_override",
    "Forecaster.Discovery.C93_same_key_refuted",
    "Forecaster.Discovery.C93_shipped"
   ],
   "note": ""
  },
  {
   "property": "C94",
   "status": "proved",
   "theorems": [
    "Forecaster.Node.C94_tree",
    "Forecaster.Node.C94_no_cycles",
    "Forecaster.Node.C94_traversal",
    "Forecaster.Node.C94_root_node_refuted",
    "Forecaster.Node.C94_methods_argument_refuted",
    "Forecaster.Node.C94_priority",
    "Forecaster.Node.C94_no_tree",
    "Forecaster.Node.C94_children_subset"
   ],
   "note": ""
  },
  {
   "property": "C95",
   "status": "proved",
   "theorems": [
    "Forecaster.Household.C95_solvent",
    "Forecaster.Household.C95_traversals_prudent",
    "Forecaster.Household.C95_strategies_prudent",
    "Forecaster.Household.C95_household_solvent",
    "Forecaster.Household.C95_falling_rates_refuted"
   ],
   "note": ""
  },
  {
   "property": "C96",
   "status": "proved",
   "theorems": [
    "Forecaster.Household.C96_completes",
    "Forecaster.Household.C96_strategies_decide",
    "Forecaster.Household.C96_household_completes",
    "Forecaster.Household.C96_empty_account_refuted"
   ],
   "note": ""
  },
  {
   "property": "C97",
   "status": "proved",
   "theorems": [
    "Forecaster.Forecast.C97_longer_forecast",
    "Forecaster.Forecast.C97_longer_or_not_at_all",
    "Forecaster.Household.C97_longer_report",
    "Forecaster.Inflation.C97_longer_scenario"
   ],
   "note": ""
  },
  {
   "property": "C98",
   "status": "proved",
   "theorems": [
    "Forecaster.CashFlow.C98_paid_on_paydays",
    "Forecaster.CashFlow.C98_order_of_people",
    "Forecaster.CashFlow.C98_within_income",
    "Forecaster.Household.C98_order_refuted"
   ],
   "note": ""
  },
  {
   "property": "C99",
   "status": "proved",
   "theorems": [
    "Forecaster.Tax.C99_money",
    "Forecaster.Tax.C99_person",
    "Forecaster.Tax.C99_household",
    "Forecaster.Tax.C99_after_accum_refuted"
   ],
   "note": ""
  },
  {
   "property": "C100",
   "status": "proved",
   "theorems": [
    "Forecaster.Opening.C100_groups",
    "Forecaster.Opening.C100_opening",
    "Forecaster.Opening.C100_room",
    "Forecaster.Opening.C100_opens",
    "Forecaster.Opening.C100_inputs_refuted"
   ],
   "note": ""
  },
  {
   "property": "C101",
   "status": "proved",
   "theorems": [
    "Forecaster.Opening.C101_new_account",
    "Forecaster.Opening.C101_clash",
    "Forecaster.Opening.C101_ghost",
    "Forecaster.Opening.C101_income",
    "Forecaster.Opening.C101_income_registered",
    "Forecaster.Opening.C101_retry_refuted",
    "Forecaster.Opening.C101_late_conversion"
   ],
   "note": ""
  },
  {
   "property": "C102",
   "status": "proved",
   "theorems": [
    "Forecaster.Opening.C102_groups",
    "Forecaster.Opening.C102_unusable",
    "Forecaster.Opening.C102_others",
    "Forecaster.Opening.C102_not_counted"
   ],
   "note": ""
  },
  {
   "property": "C103",
   "status": "proved",
   "theorems": [
    "Forecaster.Tax.C103_credit",
    "Forecaster.Tax.C103_deduction",
    "Forecaster.Tax.C103_average_rate",
    "Forecaster.Tax.C103_evening_out",
    "Forecaster.Tax.C103_couple"
   ],
   "note": ""
  },
  {
   "property": "C104",
   "status": "proved",
   "theorems": [
    "Forecaster.Account.C104_more_or_earlier",
    "Forecaster.Account.C104_more",
    "Forecaster.Account.C104_better_rates",
    "Forecaster.Account.C104_rates_not_negative"
   ],
   "note": ""
  },
  {
   "property": "C105",
   "status": "proved",
   "theorems": [
    "Forecaster.Registered.C105_answers",
    "Forecaster.Registered.C105_filling_up",
    "Forecaster.Registered.C105_tfsa_allowance",
    "Forecaster.Registered.C105_tfsa_lifetime",
    "Forecaster.Registered.C105_rrsp_allowance",
    "Forecaster.Registered.C105_rrsp_lifetime"
   ],
   "note": ""
  },
  {
   "property": "C106",
   "status": "proved",
   "theorems": [
    "Forecaster.Tax.C106_people",
    "Forecaster.Tax.C106_spouses",
    "Forecaster.Tax.C106_person",
    "Forecaster.Tax.C106_bracket_rate",
    "Forecaster.Tax.C106_same_thresholds",
    "Forecaster.Tax.C106_accum",
    "Forecaster.Tax.C106_first",
    "Forecaster.Tax.C106_payment_timing",
    "Forecaster.Tax.C106_refund_timing",
    "Forecaster.Tax.C106_planning_defined",
    "Forecaster.Tax.C106_planning_more",
    "Forecaster.Tax.C106_planning_evening_out",
    "Forecaster.Tax.C106_person_alone_fails",
    "Forecaster.Tax.C106_marginal_bracket_has_no_rate",
    "Forecaster.Tax.C106_personal_deduction_is_taxed"
   ],
   "note": ""
  },
  {
   "property": "C107",
   "status": "proved",
   "theorems": [
    "Forecaster.Account.C107_schedule",
    "Forecaster.Account.C107_paid_off",
    "Forecaster.Account.C107_never",
    "Forecaster.Account.C107_more",
    "Forecaster.Account.C107_falling_rate_refuted"
   ],
   "note": ""
  },
  {
   "property": "C108",
   "status": "proved",
   "theorems": [
    "Forecaster.Person.C108_birth_date",
    "Forecaster.Person.C108_retirement_date",
    "Forecaster.Person.C108_retirement_year",
    "Forecaster.Person.C108_retirement_age",
    "Forecaster.Person.C108_by_years",
    "Forecaster.Person.C108_tax_treatment",
    "Forecaster.Person.C108_never_retires_before_birth",
    "Forecaster.Person.C108_last_birth_date",
    "Forecaster.Person.C108_last_tax_treatment",
    "Forecaster.Person.C108_refused_none_erases",
    "Forecaster.Person.C108_birth_date_unchecked",
    "Forecaster.Person.C108_income_agrees",
    "Forecaster.Person.C108_creation",
    "Forecaster.Person.C108_creation_ties",
    "Forecaster.Person.C108_refused_dates",
    "Forecaster.Person.C108_refused_after_the_wedding"
   ],
   "note": ""
  },
  {
   "property": "C109",
   "status": "proved",
   "theorems": [
    "Forecaster.Storage.C109_round_trip",
    "Forecaster.Storage.C109_literals",
    "Forecaster.Storage.C109_constructor",
    "Forecaster.Storage.C109_places",
    "Forecaster.Storage.C109_other_files",
    "Forecaster.Storage.C109_what_can_be_written",
    "Forecaster.Storage.C109_failed_write_destroys",
    "Forecaster.Storage.C109_reader_object_refuted",
    "Forecaster.Storage.C109_nan_refuted",
    "Forecaster.Storage.C109_whole_numbers_refuted"
   ],
   "note": ""
  },
  {
   "property": "C110",
   "status": "proved",
   "theorems": [
    "Forecaster.DebtPayment.C110_pays_in_order",
    "Forecaster.DebtPayment.C110_minimums_first",
    "Forecaster.DebtPayment.C110_priority",
    "Forecaster.DebtPayment.C110_never_overpays",
    "Forecaster.DebtPayment.C110_nothing_withdrawn",
    "Forecaster.DebtPayment.C110_always_answers",
    "Forecaster.DebtPayment.C110_amount_refuted",
    "Forecaster.DebtPayment.C110_no_debts_refuted",
    "Forecaster.DebtPayment.C110_keys"
   ],
   "note": ""
  },
  {
   "property": "C111",
   "status": "proved",
   "theorems": [
    "Forecaster.Household.C111_order_of_accounts"
   ],
   "note": ""
  },
  {
   "property": "C112",
   "status": "proved",
   "theorems": [
    "Forecaster.Registered.C112_tfsa_room",
    "Forecaster.Registered.C112_tfsa_conserved",
    "Forecaster.Registered.C112_order_refuted",
    "Forecaster.Registered.C112_lifetime_refuted",
    "Forecaster.Registered.C112_rrsp_room"
   ],
   "note": ""
  },
  {
   "property": "C113",
   "status": "proved",
   "theorems": [
    "Forecaster.Household.C113_limits_kept",
    "Forecaster.Household.C113_tfsa",
    "Forecaster.Household.C113_rrsp"
   ],
   "note": ""
  },
  {
   "property": "C114",
   "status": "proved",
   "theorems": [
    "Forecaster.Units.C114_figures",
    "Forecaster.Units.C114_fails_alike",
    "Forecaster.Units.C114_everything",
    "Forecaster.Units.C114_every_household"
   ],
   "note": ""
  },
  {
   "property": "C115",
   "status": "proved",
   "theorems": [
    "Forecaster.Units.C115_traversal",
    "Forecaster.Units.C115_accounts",
    "Forecaster.Units.C115_strategy",
    "Forecaster.Units.C115_fixed_precision_refuted",
    "Forecaster.Units.C115_debt_order",
    "Forecaster.Units.C115_debt_payments"
   ],
   "note": ""
  },
  {
   "property": "C116",
   "status": "proved",
   "theorems": [
    "Forecaster.Units.C116_init",
    "Forecaster.Units.C116_money",
    "Forecaster.Units.C116_tax",
    "Forecaster.Units.C116_jurisdictions",
    "Forecaster.Units.C116_canada",
    "Forecaster.Units.C116_living_expenses"
   ],
   "note": ""
  },
  {
   "property": "C117",
   "status": "proved",
   "theorems": [
    "Forecaster.Calendar.C117_figures",
    "Forecaster.Calendar.C117_fails_alike",
    "Forecaster.Calendar.C117_everything",
    "Forecaster.Calendar.C117_every_household"
   ],
   "note": ""
  },
  {
   "property": "C118",
   "status": "proved",
   "theorems": [
    "Forecaster.Calendar.C118_scenario",
    "Forecaster.Calendar.C118_init",
    "Forecaster.Calendar.C118_money",
    "Forecaster.Calendar.C118_tax",
    "Forecaster.Calendar.C118_jurisdictions",
    "Forecaster.Calendar.C118_canada",
    "Forecaster.Calendar.C118_living_expenses"
   ],
   "note": ""
  },
  {
   "property": "C119",
   "status": "proved",
   "theorems": [
    "Forecaster.Link.C119_equality",
    "Forecaster.Link.C119_same_record",
    "Forecaster.Link.C119_foreign_objects",
    "Forecaster.Link.C119_set",
    "Forecaster.Link.C119_interchangeable",
    "Forecaster.Link.C119_is_linked",
    "Forecaster.Link.C119_constructor"
   ],
   "note": ""
  },
  {
   "property": "C120",
   "status": "proved",
   "theorems": [
    "Forecaster.Family.C120_people",
    "Forecaster.Family.C120_income",
    "Forecaster.Family.C120_strategy_is_told",
    "Forecaster.Family.C120_living_expenses",
    "Forecaster.Family.C120_accounts",
    "Forecaster.Family.C120_tax",
    "Forecaster.Family.C120_sound",
    "Forecaster.Family.C120_report"
   ],
   "note": ""
  },
  {
   "property": "C121",
   "status": "proved",
   "theorems": [
    "Forecaster.Family.C121_tables",
    "Forecaster.Family.C121_completes",
    "Forecaster.Family.C121_no_retirees",
    "Forecaster.Family.C121_forecast"
   ],
   "note": ""
  },
  {
   "property": "C122",
   "status": "proved",
   "theorems": [
    "Forecaster.Taxable.C122_capital_gain",
    "Forecaster.Taxable.C122_taxable_income",
    "Forecaster.Family.C122_withholding_is_known",
    "Forecaster.Family.C122_tax",
    "Forecaster.Family.C122_rrsp_withholds",
    "Forecaster.Family.C122_report",
    "Forecaster.Family.C122_completes",
    "Forecaster.Family.C122_forecast"
   ],
   "note": ""
  },
  {
   "property": "C123",
   "status": "proved",
   "theorems": [
    "Forecaster.Family.C123_tax",
    "Forecaster.Family.C123_one_spousal_credit",
    "Forecaster.Family.C123_tax_on_accounts",
    "Forecaster.Family.C123_report",
    "Forecaster.Family.C123_completes",
    "Forecaster.Family.C123_forecast",
    "Forecaster.Family.C123_shipped"
   ],
   "note": ""
  },
  {
   "property": "C124",
   "status": "proved",
   "theorems": [
    "Forecaster.Family.C124_renaming",
    "Forecaster.Family.C124_addresses",
    "Forecaster.Family.C124_addresses_refuted"
   ],
   "note": ""
  },
  {
   "property": "C125",
   "status": "proved",
   "theorems": [
    "Forecaster.Person.C125_greater",
    "Forecaster.Person.C125_not_comparable",
    "Forecaster.Person.C125_unknown_income",
    "Forecaster.Person.C125_max",
    "Forecaster.Person.C125_min",
    "Forecaster.Person.C125_sorted",
    "Forecaster.Person.C125_by_pay"
   ],
   "note": ""
  },
  {
   "property": "C126",
   "status": "proved",
   "theorems": [
    "Forecaster.Accum.C126_accumulation",
    "Forecaster.Accum.C126_time_to_value",
    "Forecaster.Accum.C126_named_frequencies",
    "Forecaster.Account.C126_savings",
    "Forecaster.Account.C126_borrowing"
   ],
   "note": ""
  },
  {
   "property": "C127",
   "status": "proved",
   "theorems": [
    "Forecaster.Units.C127_taxable_unit",
    "Forecaster.Units.C127_rrsp_unit",
    "Forecaster.Units.C127_rrsp_figures",
    "Forecaster.Units.C127_withholding_unit",
    "Forecaster.Units.C127_tfsa_unit",
    "Forecaster.Units.C127_tfsa_figures",
    "Forecaster.Units.C127_new_tfsa_unit",
    "Forecaster.Calendar.C127_taxable_years",
    "Forecaster.Calendar.C127_rrsp_years",
    "Forecaster.Calendar.C127_withholding_years",
    "Forecaster.Calendar.C127_tfsa_years",
    "Forecaster.Calendar.C127_new_tfsa_years"
   ],
   "note": ""
  },
  {
   "property": "C128",
   "status": "proved",
   "theorems": [
    "Forecaster.Account.C128_only_net_amounts",
    "Forecaster.Account.C128_order",
    "Forecaster.Account.C128_parts",
    "Forecaster.Account.C128_taken_back",
    "Forecaster.Account.C128_rearrangements",
    "Forecaster.Account.C128_dates_matter",
    "Forecaster.Taxable.C128_taxable_account"
   ],
   "note": ""
  }
 ]
}