{
 "claims": [
  {
   "property": "C01",
   "status": "partial",
   "theorems": [
    "Vbt.C01_never_negative_partial",
    "Vbt.C01_history_never_negative_partial",
    "Vbt.C01_cash_nonneg_partial",
    "Vbt.C01_healthy_partial",
    "Vbt.C01_history_partial",
    "Vbt.C01_counterexample_fees",
    "Vbt.C01_counterexample_nan"
   ],
   "note": "False for fees < -100 % with a granularity and for orders whose size becomes NaN (both witnessed); proved outside of these, for all histories, any tolerances, exact arithmetic."
  },
  {
   "property": "C02",
   "status": "proved",
   "theorems": [
    "Vbt.C02_buy",
    "Vbt.C02_sell",
    "Vbt.C02_exact",
    "Vbt.C02_infinite_cash",
    "Vbt.C02_run",
    "Vbt.C02_run_signals"
   ],
   "note": "Finite fill sizes, finite or infinite cash; exact arithmetic with the code's tolerances, and the plain equations for zero tolerances. C02_run: over whole runs balances are what the records say, up to a stated bound on what the tolerances swallow."
  },
  {
   "property": "C03",
   "status": "proved",
   "theorems": [
    "Vbt.C03_not_filled",
    "Vbt.C03_exact"
   ],
   "note": "Every arithmetic; tolerance made explicit in exact arithmetic."
  },
  {
   "property": "C04",
   "status": "partial",
   "theorems": [
    "Vbt.C04_contradiction",
    "Vbt.C04_direction_partial",
    "Vbt.C04_history_partial",
    "Vbt.C04_counterexample"
   ],
   "note": "False for LongOnly Percent orders above 100 % (witnessed); proved outside of that and of the C01 guards, per order and for histories."
  },
  {
   "property": "C05",
   "status": "proved",
   "theorems": [
    "Vbt.C05_cost_model",
    "Vbt.C05_price"
   ],
   "note": "Finite fill sizes; price formula for every arithmetic."
  },
  {
   "property": "C06",
   "status": "partial",
   "theorems": [
    "Vbt.C06_size_partial",
    "Vbt.C06_counterexample"
   ],
   "note": "A cash-limited granular buy can be filled with size 0 (witnessed); everything else proved under the C01 guards."
  },
  {
   "property": "C07",
   "status": "partial",
   "theorems": [
    "Vbt.C07_debt_step_partial",
    "Vbt.C07_debt_history_partial",
    "Vbt.C07_booked_step_partial",
    "Vbt.C07_booked_history_partial",
    "Vbt.C07_counterexample"
   ],
   "note": "Debt never exceeds what short sales booked; exact identity needs zero tolerances and slippage<=1 (counterexample proved)"
  },
  {
   "property": "C08",
   "status": "partial",
   "theorems": [
    "Vbt.C08_free_cash_step_partial",
    "Vbt.C08_free_cash_history_partial",
    "Vbt.C08_counterexample"
   ],
   "note": "Needs fixed fees <= 0 while covering a short; counterexample proved"
  },
  {
   "property": "C09",
   "status": "proved",
   "theorems": [
    "Vbt.C09_side",
    "Vbt.C09_requested",
    "Vbt.C09_target",
    "Vbt.C09_filled_in_full",
    "Vbt.C09_percent_buy",
    "Vbt.C09_percent_sell_long",
    "Vbt.C09_percent_sell_short"
   ],
   "note": ""
  },
  {
   "property": "C10",
   "status": "proved",
   "theorems": [
    "Vbt.C10_value_filled",
    "Vbt.C10_value_not_filled"
   ],
   "note": ""
  },
  {
   "property": "C11",
   "status": "proved",
   "theorems": [
    "Vbt.C11_nan_size",
    "Vbt.C11_nan_price",
    "Vbt.C11_invalid_raises",
    "Vbt.C11_valid",
    "Vbt.C11_exactly"
   ],
   "note": ""
  },
  {
   "property": "C12",
   "status": "proved",
   "theorems": [
    "Vbt.C12_zero",
    "Vbt.C12_one",
    "Vbt.C12_otherwise"
   ],
   "note": ""
  },
  {
   "property": "C13",
   "status": "proved",
   "theorems": [
    "Vbt.C13_from_orders",
    "Vbt.C13_from_signals"
   ],
   "note": "For simulate_from_orders_nb (and the other simulators once modelled); call_seq must be a permutation per group"
  },
  {
   "property": "C14",
   "status": "proved",
   "theorems": [
    "Vbt.C14_exactly",
    "Vbt.C14_default_never",
    "Vbt.C14_no_overflow",
    "Vbt.C14_exactly_signals",
    "Vbt.C14_default_never_signals",
    "Vbt.C14_no_overflow_signals",
    "Vbt.C14_no_overflow_signal_func"
   ],
   "note": ""
  },
  {
   "property": "C15",
   "status": "proved",
   "theorems": [
    "Vbt.C15_rows_before",
    "Vbt.C15_single_group",
    "Vbt.C15_from_signals",
    "Vbt.C15_from_signal_func"
   ],
   "note": "every arithmetic; random draws are inputs of each call"
  },
  {
   "property": "C16",
   "status": "proved",
   "theorems": [
    "Vbt.C16_group",
    "Vbt.C16_from_signals",
    "Vbt.C16_from_signal_func"
   ],
   "note": "every arithmetic; random draws are inputs of each call"
  },
  {
   "property": "C17",
   "status": "partial",
   "theorems": [
    "Vbt.C17_balances_partial",
    "Vbt.C17_free_cash_partial",
    "Vbt.C17_reaches_end"
   ],
   "note": "guards: fees > -100 %, slippage <= 100 %, finite non-zero Percent sizes, finite close (needed: witnesses of C01/C07); free-cash identity for zero tolerances"
  },
  {
   "property": "C18",
   "status": "partial",
   "theorems": [
    "Vbt.C18_assets_partial",
    "Vbt.C18_cash_partial",
    "Vbt.C18_cash_grouped_partial",
    "Vbt.C18_counterexample_tolerance",
    "Vbt.C18_assets_signals_partial",
    "Vbt.C18_cash_signals_partial",
    "Vbt.C18_cash_grouped_signals_partial",
    "Vbt.C18_assets_within",
    "Vbt.C18_cash_within",
    "Vbt.C18_cash_grouped_within",
    "Vbt.C18_assets_signals_within",
    "Vbt.C18_cash_signals_within",
    "Vbt.C18_cash_grouped_signals_within"
   ],
   "note": "Exact agreement when no single movement is below the tolerances (Visible), and always with zero tolerances; C18_counterexample_tolerance shows that exact agreement is false with the real tolerances. The *_within theorems drop all guards but finite numbers and bound the difference by 1e-9 of the volume plus 1e-12 per addition, for assets, cash and cash of groups, from orders and from signals."
  },
  {
   "property": "C19",
   "status": "partial",
   "theorems": [
    "Vbt.C19_total_profit",
    "Vbt.C19_no_orders",
    "Vbt.C19_ids",
    "Vbt.C19_grouped",
    "Vbt.C19_simulated",
    "Vbt.C19_signals",
    "Vbt.C19_records_within",
    "Vbt.C19_series_within",
    "Vbt.C19_simulated_within",
    "Vbt.C19_signals_within",
    "Vbt.C19_counterexample_tolerance"
   ],
   "note": "Exact equality with zero tolerances; with the real ones it is false (C19_counterexample_tolerance) and the *_within theorems bound the difference for any records and for simulated columns. A column without orders has profit 0 even for a NaN close (C19_no_orders)."
  },
  {
   "property": "C20",
   "status": "partial",
   "theorems": [
    "Vbt.C20_profit_partial",
    "Vbt.C20_tolerance_counterexample"
   ],
   "note": "Zero tolerances, finite last close. With the tolerances of the code the sums can differ (C20_tolerance_counterexample)."
  },
  {
   "property": "C21",
   "status": "proved",
   "theorems": [
    "Vbt.C21_trades",
    "Vbt.C21_sizes",
    "Vbt.C21_rows",
    "Vbt.C21_open"
   ],
   "note": "For all histories in which no size comparison is decided by a tolerance (always so with zero tolerances)."
  },
  {
   "property": "C22",
   "status": "partial",
   "theorems": [
    "Vbt.C22_same_positions_partial",
    "Vbt.C22_clear_partial",
    "Vbt.C22_tolerance_counterexample"
   ],
   "note": "Proved with zero tolerances and with any tolerances when no comparison is decided by them; false otherwise (C22_tolerance_counterexample)."
  },
  {
   "property": "C23",
   "status": "proved",
   "theorems": [
    "Vbt.C23_winning",
    "Vbt.C23_losing",
    "Vbt.C23_no_win"
   ],
   "note": ""
  },
  {
   "property": "C24",
   "status": "proved",
   "theorems": [
    "Vbt.C24_default",
    "Vbt.C24_reversed",
    "Vbt.C24_random",
    "Vbt.C24_builders_agree"
   ],
   "note": ""
  },
  {
   "property": "C25",
   "status": "proved",
   "theorems": [
    "Vbt.C25_sorted",
    "Vbt.C25_nan_last",
    "Vbt.C25_calls",
    "Vbt.C25_sells_first",
    "Vbt.C25_sort_call_seq_out"
   ],
   "note": ""
  },
  {
   "property": "C26",
   "status": "partial",
   "theorems": [
    "Vbt.C26_conflict",
    "Vbt.C26_conflict_both",
    "Vbt.C26_entries",
    "Vbt.C26_opposite_short",
    "Vbt.C26_opposite_long",
    "Vbt.C26_no_conflict",
    "Vbt.C26_no_dir_conflict",
    "Vbt.C26_unchanged",
    "Vbt.C26_settled_partial",
    "Vbt.C26_from_input",
    "Vbt.C26_nan_counterexample",
    "Vbt.C26_cross_counterexample"
   ],
   "note": "Per direction at most one of entry and exit survives, and at most one entry; documented survivor per mode; unchanged without conflict. False over both directions: a long entry and a short exit pass together (C26_cross_counterexample). NaN position with Direction.Both keeps both signals (C26_nan_counterexample); the simulators never pass Both."
  },
  {
   "property": "C27",
   "status": "proved",
   "theorems": [
    "Vbt.C27_order",
    "Vbt.C27_nan_closes",
    "Vbt.C27_nothing",
    "Vbt.C27_no_order",
    "Vbt.C27_side",
    "Vbt.C27_exit",
    "Vbt.C27_fails",
    "Vbt.C27_stop"
   ],
   "note": "For sizes >= 0 (a negative size within the tolerance passes the check of the source) the order stands for the documented action; sides, exits, stop exits and error cases."
  },
  {
   "property": "C28",
   "status": "proved",
   "theorems": [
    "Vbt.C28_agree",
    "Vbt.C28_dir",
    "Vbt.C28_ls",
    "Vbt.C28_modes",
    "Vbt.C28_no_signal"
   ],
   "note": "Whole results agree including errors and stops; the two simulators share model code where the source texts coincide (DESIGN.md)."
  },
  {
   "property": "C29",
   "status": "proved",
   "theorems": [
    "Vbt.C29_down",
    "Vbt.C29_up",
    "Vbt.C29_within",
    "Vbt.C29_not_held",
    "Vbt.C29_negative",
    "Vbt.C29_order_stop"
   ],
   "note": "Exact characterisation of hit and price for falling and rising levels, within the bar; order of stop loss before take profit."
  },
  {
   "property": "C30",
   "status": "proved",
   "theorems": [
    "Vbt.C30_tightens",
    "Vbt.C30_extreme",
    "Vbt.C30_fixed",
    "Vbt.C30_opened",
    "Vbt.C30_closed",
    "Vbt.C30_level",
    "Vbt.C30_still_hit"
   ],
   "note": "For the array simulator the reference is exactly the best price reached; for the signal function simulator with any hooks it never moves against the position; levels and hits follow. With cash sharing the call sequence must be a permutation (SigSeqOk)."
  },
  {
   "property": "C31",
   "status": "proved",
   "theorems": [
    "Vbt.C31_cleaned",
    "Vbt.Cleaned.unique",
    "Vbt.C31_never_both",
    "Vbt.C31_idempotent"
   ],
   "note": "Full characterisation of the cleaned arrays, uniqueness and idempotence, for entry_first both ways."
  },
  {
   "property": "C32",
   "status": "partial",
   "theorems": [
    "Vbt.C32_windows",
    "Vbt.C32_exit_after_entry",
    "Vbt.C32_no_error",
    "Vbt.C32_skip_partial",
    "Vbt.C32_skip_counterexample"
   ],
   "note": "Windows and stop at next entry for every choice function. With skip_until_exit the code takes the last returned index as the exit, so an unsorted answer lets an entry inside a not yet exited range get exits (C32_skip_counterexample); proved for sorted answers."
  },
  {
   "property": "C33",
   "status": "partial",
   "theorems": [
    "Vbt.C33_turns",
    "Vbt.C33_alternate_partial",
    "Vbt.C33_never_coincide_partial",
    "Vbt.C33_alternate_first",
    "Vbt.C33_terminates_partial",
    "Vbt.C33_fuel",
    "Vbt.C33_succeeds",
    "Vbt.C33_endless_counterexample",
    "Vbt.C33_coincide_counterexample"
   ],
   "note": "Without pick-first the code takes the last returned index as the next starting point, so unsorted answers can loop forever (C33_endless_counterexample) or coincide (C33_coincide_counterexample); proved for pick-first and for sorted answers, termination also for answers in range."
  },
  {
   "property": "C34",
   "status": "proved",
   "theorems": [
    "Vbt.C34_records",
    "Vbt.C34_between",
    "Vbt.C34_between_two",
    "Vbt.C34_between_two_other",
    "Vbt.C34_partitions",
    "Vbt.C34_partitions_cover",
    "Vbt.C34_between_partitions"
   ],
   "note": "All four record functions characterised."
  },
  {
   "property": "C35",
   "status": "proved",
   "theorems": [
    "Vbt.C35_position",
    "Vbt.C35_partition",
    "Vbt.C35_not_ranked"
   ],
   "note": "Position and partition ranks with every option."
  },
  {
   "property": "C36",
   "status": "proved",
   "theorems": [
    "Vbt.C36_forward",
    "Vbt.C36_backward",
    "Vbt.C36_forward_backward",
    "Vbt.C36_backward_forward",
    "Vbt.C36_all",
    "Vbt.C36_add"
   ],
   "note": "Both shifts are characterised cell by cell for every array, amount, fill value and length."
  },
  {
   "property": "C37",
   "status": "proved",
   "theorems": [
    "Vbt.C37_forward",
    "Vbt.C37_forward_keeps",
    "Vbt.C37_forward_idempotent",
    "Vbt.C37_backward",
    "Vbt.C37_mirror",
    "Vbt.C37_backward_keeps",
    "Vbt.C37_backward_idempotent"
   ],
   "note": "Filling is characterised by the latest (next) observation; keeps observations; idempotent; the two directions mirror each other."
  },
  {
   "property": "C38",
   "status": "partial",
   "theorems": [
    "Vbt.C38_minp",
    "Vbt.C38_min",
    "Vbt.C38_max",
    "Vbt.C38_expanding_min",
    "Vbt.C38_expanding_max",
    "Vbt.C38_mean_partial",
    "Vbt.C38_expanding_mean",
    "Vbt.C38_counterexample_inf",
    "Vbt.C38_counterexample_empty"
   ],
   "note": "Min and max for every array; mean for exact arithmetic without infinities; witnesses show an infinity spoiling later windows and minp=0 raising on an empty window."
  },
  {
   "property": "C39",
   "status": "proved",
   "theorems": [
    "Vbt.C39_fshift",
    "Vbt.C39_diff",
    "Vbt.C39_ffill",
    "Vbt.C39_rollingMin",
    "Vbt.C39_rollingMax",
    "Vbt.C39_rollingMean",
    "Vbt.C39_rollingStd",
    "Vbt.C39_ewmMean",
    "Vbt.C39_ewmStd",
    "Vbt.C39_expandingMin",
    "Vbt.C39_expandingMax",
    "Vbt.C39_expandingMean",
    "Vbt.C39_expandingStd",
    "Vbt.C39_rollingApply",
    "Vbt.C39_expandingApply",
    "Vbt.C39_crossedAbove",
    "Vbt.C39_returns",
    "Vbt.C39_cumReturns",
    "Vbt.C39_drawdown"
   ],
   "note": "Two runs agreeing up to a row agree on all outputs up to that row, for every arithmetic."
  },
  {
   "property": "C40",
   "status": "partial",
   "theorems": [
    "Vbt.C40_drawdowns",
    "Vbt.C40_disjoint",
    "Vbt.C40_rows",
    "Vbt.C40_durations",
    "Vbt.C40_covered_partial",
    "Vbt.C40_counterexample_nan",
    "Vbt.C40_records"
   ],
   "note": "Records are exactly the drawdowns of the column, ordered, disjoint, with peak, valley, end and status as stated; coverage of every row below the running maximum fails when the series ends with NaN inside a decline (witness)."
  },
  {
   "property": "C41",
   "status": "proved",
   "theorems": [
    "Vbt.C41_ranges",
    "Vbt.C41_records",
    "Vbt.C41_mask_any",
    "Vbt.C41_mask",
    "Vbt.C41_duration",
    "Vbt.C41_coverage_any",
    "Vbt.C41_coverage",
    "Vbt.C41_groups",
    "Vbt.C41_groups_bound",
    "Vbt.C41_groups_counterexample"
   ],
   "note": "Records, numbering, mask, duration and coverage for every array, gap value and number of columns; coverage is NaN for a column without records. Finding: the coverage of a group counts each row once but divides by rows times columns, so it never exceeds one over the number of columns."
  },
  {
   "property": "C42",
   "status": "proved",
   "theorems": [
    "Vbt.C42_crossed",
    "Vbt.C42_now",
    "Vbt.C42_once",
    "Vbt.C42_negative"
   ],
   "note": "A crossing with waiting is characterised for every pair of series."
  },
  {
   "property": "C43",
   "status": "partial",
   "theorems": [
    "Vbt.C43_returns",
    "Vbt.C43_roundtrip_partial",
    "Vbt.C43_total_partial",
    "Vbt.C43_counterexample_negative"
   ],
   "note": "Round trip and total return for positive values (up to and including the first non-positive one); returns from negative values have reversed sign, with a witness that the claim fails there."
  },
  {
   "property": "C44",
   "status": "partial",
   "theorems": [
    "Vbt.C44_drawdown_partial",
    "Vbt.C44_max_partial",
    "Vbt.C44_counterexample_positive",
    "Vbt.C44_counterexample_total_loss",
    "Vbt.C44_first_row"
   ],
   "note": "Holds for finite or missing returns of at least -100% with the first above -100%; witnesses for a positive drawdown and for NaN otherwise; a loss in the first row does not count."
  },
  {
   "property": "C45",
   "status": "proved",
   "theorems": [
    "Vbt.C45_map",
    "Vbt.C45_ascending",
    "Vbt.C45_map_select",
    "Vbt.C45_records",
    "Vbt.C45_record_map_select",
    "Vbt.C45_is_sorted",
    "Vbt.C45_range",
    "Vbt.C45_range_error",
    "Vbt.C45_range_select",
    "Vbt.C45_meta",
    "Vbt.C45_record_range_select"
   ],
   "note": "uninitialised output arrays start with arbitrary contents; column numbers are natural numbers"
  },
  {
   "property": "C46",
   "status": "proved",
   "theorems": [
    "Vbt.C46_top",
    "Vbt.C46_bottom",
    "Vbt.C46_negative"
   ],
   "note": "NaN ranks last in both masks. np.partition is modelled as the k-th element of the sorted array."
  },
  {
   "property": "C47",
   "status": "proved",
   "theorems": [
    "Vbt.C47_expandable",
    "Vbt.C47_expand",
    "Vbt.C47_conflict",
    "Vbt.C47_stack"
   ],
   "note": "Cells are assumed to lie within the target shape."
  },
  {
   "property": "C48",
   "status": "proved",
   "theorems": [
    "Vbt.C48_select",
    "Vbt.C48_in_bounds",
    "Vbt.C48_simulation"
   ],
   "note": "Indexing is compared with an independent definition of numpy broadcasting, and a whole simulation reading its inputs through flexible indexing gives the same result as one reading the broadcast arrays."
  },
  {
   "property": "C49",
   "status": "partial",
   "theorems": [
    "Vbt.C49_lens_partial",
    "Vbt.C49_consecutive",
    "Vbt.C49_unsorted",
    "Vbt.C49_incoherent",
    "Vbt.C49_labels_partial",
    "Vbt.C49_no_grouping",
    "Vbt.C49_counterexample_missing"
   ],
   "note": "Proved for group codes that are not negative and labels without missing values; with a missing label in front the length of the first group counts a column of no group (C49_counterexample_missing)."
  },
  {
   "property": "C50",
   "status": "partial",
   "theorems": [
    "Vbt.C50_sets_partial",
    "Vbt.C50_raises",
    "Vbt.C50_ranges",
    "Vbt.C50_even",
    "Vbt.C50_rolling_partial",
    "Vbt.C50_expanding_partial",
    "Vbt.C50_counterexample_negative",
    "Vbt.C50_counterexample_fractional",
    "Vbt.C50_counterexample_window"
   ],
   "note": "Partition proved for whole-number or fractional (between 0 and 1) set and window lengths and min_len of at least 1; negative and other fractional lengths are accepted by the code and break it (counterexamples). linspace computed exactly."
  },
  {
   "property": "C51",
   "status": "partial",
   "theorems": [
    "Vbt.C51_last_wins",
    "Vbt.C51_nothing_else",
    "Vbt.C51_atomic",
    "Vbt.C51_not_nested",
    "Vbt.C51_keys",
    "Vbt.C51_arguments_unchanged",
    "Vbt.C51_update_in_place",
    "Vbt.C51_same_keys_partial",
    "Vbt.C51_counterexample_empty",
    "Vbt.C51_counterexample_child",
    "Vbt.C51_not_associative"
   ],
   "note": "Value model of merge_dicts (Model/Config) plus an in-memory model (Model/ConfigHeap) for 'arguments are not modified'. The same_keys clause is false of the code when the first dictionary is empty and inside child dictionaries; both are proved as counterexamples and the clause is proved for the remaining case."
  },
  {
   "property": "C52",
   "status": "partial",
   "theorems": [
    "Vbt.C52_readonly_partial",
    "Vbt.C52_readonly_shallow",
    "Vbt.C52_frozen_partial",
    "Vbt.C52_reset_partial",
    "Vbt.C52_checkpoint_partial",
    "Vbt.C52_counterexample_setdefault",
    "Vbt.C52_counterexample_ior",
    "Vbt.C52_counterexample_nested",
    "Vbt.C52_counterexample_reset_keys",
    "Vbt.C52_counterexample_shared",
    "Vbt.C52_created",
    "Vbt.C52_reset_restores",
    "Vbt.C52_update_allowed"
   ],
   "note": "All histories of Config methods. False of the code for the inherited setdefault and |=, for nested updates into plain child dictionaries of a read-only config, for frozen configs with a separate reset_dct, and for reset when grandchildren are shared (default nested=False): each is proved as a counterexample and excluded in the theorem. Values are compared by value except in C52_counterexample_shared."
  },
  {
   "property": "C53",
   "status": "proved",
   "theorems": [
    "Vbt.C53_product",
    "Vbt.C53_once",
    "Vbt.C53_empty",
    "Vbt.C53_broadcast",
    "Vbt.C53_broadcast_max",
    "Vbt.C53_flatten",
    "Vbt.C53_tree",
    "Vbt.C53_combinations",
    "Vbt.C53_no_combination",
    "Vbt.C53_itertools_combinations"
   ],
   "note": "itertools.product and zip(*rows) are modelled. With an empty list the product has no output lists at all (C53_empty). Broadcasting to an explicit length 0 keeps singletons and is excluded. create_param_combs applies arbitrary callables and is not modelled; flatten_param_tuples is."
  },
  {
   "property": "C54",
   "status": "partial",
   "theorems": [
    "Vbt.C54_cash",
    "Vbt.C54_cash_grouped",
    "Vbt.C54_init_grouped",
    "Vbt.C54_init_shared",
    "Vbt.C54_cash_sim_order",
    "Vbt.C54_value_window",
    "Vbt.C54_cash_last",
    "Vbt.C54_value_last",
    "Vbt.C54_value_grouped",
    "Vbt.C54_window_counterexample",
    "Vbt.C54_cash_within"
   ],
   "note": "Exact equalities with zero tolerances for accumulation, bounds for all tolerances (C54_cash_within); finite flows, asset values finite or NaN. In the middle of a row the in-simulation-order value can count a column twice (C54_window_counterexample); the claim is about the last called column."
  },
  {
   "property": "C55",
   "status": "proved",
   "theorems": [
    "Vbt.C55_record",
    "Vbt.C55_open"
   ],
   "note": "Record kept by update_pos_record_nb over the orders of a column vs. get_positions_nb, exact arithmetic; while open, exit row/price differ by design (C55_open)."
  },
  {
   "property": "C56",
   "status": "partial",
   "theorems": [
    "Vbt.C56_preview",
    "Vbt.C56_draw",
    "Vbt.C56_slot",
    "Vbt.C56_counterexample_draw"
   ],
   "note": "Same draw: preview and processing agree (exception, result, balances); independent of the draw when reject_prob is not positive; with a positive reject_prob the preview has its own draw and may differ (counterexample). Absence of side effects is immediate in the model: try_order_nb is a function of tuples."
  },
  {
   "property": "C57",
   "status": "proved",
   "theorems": [
    "Vbt.C57_success",
    "Vbt.C57_same",
    "Vbt.C57_forward",
    "Vbt.C57_backward",
    "Vbt.C57_counterexample_shared"
   ],
   "note": "Callbacks of one's own group only (OwnGroupOnly: memory split by group, group and row hooks idle, the hook after the simulation idle, the hook before it arbitrary): success of one simulator is equivalent to success of the other, with the same records per column up to ids and the same final balances. Counterexample for a counter shared by groups."
  },
  {
   "property": "C58",
   "status": "partial",
   "theorems": [
    "Vbt.C58_refines",
    "Vbt.C58_equivalent",
    "Vbt.C58_counterexample_memoryless"
   ],
   "note": "Equivalent when the order function keeps its own valuation prices (or none has to be carried over); with callbacks that rely on the simulator's last_val_price the orders differ, because simulate_nb overwrites it with the close at the end of each row. Groups have at least one column."
  },
  {
   "property": "C59",
   "status": "partial",
   "theorems": [
    "Vbt.C59_breakout",
    "Vbt.C59_fixed",
    "Vbt.C59_fixed_nan",
    "Vbt.C59_future_min",
    "Vbt.C59_future_max",
    "Vbt.C59_future_mean_partial",
    "Vbt.C59_mean_labels_partial",
    "Vbt.C59_future_mean_past",
    "Vbt.C59_counterexample_ewm",
    "Vbt.C59_extrema",
    "Vbt.C59_extrema_returns",
    "Vbt.C59_counterexample_between",
    "Vbt.C59_trend",
    "Vbt.C59_trend_pct"
   ],
   "note": "Breakout, fixed, future min/max, local extrema and trend labels are proved for all inputs; the future mean in exact arithmetic without infinite values; the exponential mean looks beyond its window (C59_counterexample_ewm), only independence from earlier rows is proved. The standard deviation labels are modelled without a theorem on the window."
  },
  {
   "property": "C60",
   "status": "partial",
   "theorems": [
    "Vbt.C60_rsi",
    "Vbt.C60_stoch_nonneg",
    "Vbt.C60_stoch_partial",
    "Vbt.C60_counterexample_stoch",
    "Vbt.C60_stoch_d_nonneg",
    "Vbt.C60_stoch_d_partial",
    "Vbt.C60_bands",
    "Vbt.C60_bollinger",
    "Vbt.C60_true_range",
    "Vbt.C60_true_range_gap",
    "Vbt.double_sound"
   ],
   "note": "RSI, stochastic %K and %D lower bounds, Bollinger ordering and true range hold for every arithmetic that rounds monotonically and keeps small integers (including IEEE binary64, double_sound). The upper bound 100 of %K and %D holds in exact arithmetic only: in binary64 %K of 0.007 in [0, 0.007] is above 100 (C60_counterexample_stoch)."
  },
  {
   "property": "C61",
   "status": "proved",
   "theorems": [
    "Vbt.C61_first",
    "Vbt.C61_stop",
    "Vbt.C61_ohlc",
    "Vbt.C61_ohlc_error",
    "Vbt.C61_gap"
   ],
   "note": "First hit or all hits, level recorded as hit price, stop loss before take profit. The recorded price is the stop level itself, also if the bar opens beyond it (C61_gap)."
  },
  {
   "property": "C62",
   "status": "partial",
   "theorems": [
    "Vbt.C62_mapper",
    "Vbt.C62_agree",
    "Vbt.C62_aligned_partial",
    "Vbt.C62_equal",
    "Vbt.C62_single",
    "Vbt.C62_returns",
    "Vbt.C62_duplicates",
    "Vbt.C62_indexes",
    "Vbt.C62_counterexample"
   ],
   "note": "Holds if every row of the second index occurs in the first on the common levels (always so for a single common level without missing values and unused categories, C62_single). Otherwise the positions shift and end in uninitialised memory (C62_counterexample). pd.factorize and np.unique are modelled; levels of MultiIndex given as values and categories."
  },
  {
   "property": "C63",
   "status": "partial",
   "theorems": [
    "Vbt.C63_one",
    "Vbt.C63_history",
    "Vbt.C63_order",
    "Vbt.C63_sorted",
    "Vbt.C63_array",
    "Vbt.C63_align",
    "Vbt.C63_update",
    "Vbt.C63_same_index",
    "Vbt.C63_counterexample_nan",
    "Vbt.C63_counterexample_drop",
    "Vbt.C63_counterexample_sorted"
   ],
   "note": "For one symbol all parts hold for every history of updates. For several symbols C63_update states exactly what happens: new labels one symbol lacks are set to NaN, which erases its old value (C63_counterexample_nan), or dropped for all symbols (C63_counterexample_drop); the index may become unsorted (C63_counterexample_sorted, C63_sorted)."
  },
  {
   "property": "C64",
   "status": "partial",
   "theorems": [
    "Vbt.C64_rank",
    "Vbt.C64_narrower",
    "Vbt.C64_decision",
    "Vbt.C64_default",
    "Vbt.C64_scope",
    "Vbt.C64_property",
    "Vbt.C64_method",
    "Vbt.C64_method_pure",
    "Vbt.C64_method_size",
    "Vbt.C64_method_hit",
    "Vbt.C64_counterexample_method",
    "Vbt.C64_counterexample_rank",
    "Vbt.C64_counterexample_name"
   ],
   "note": "The ranking, narrowest-condition, default and scope rules of should_cache and the exactness of cached properties and methods are proved for every condition set. Missing: a callable condition naming a cached method makes every property decision raise TypeError, an own rank of 100 or more has no effect, and two same-named properties share a slot, each with a witness."
  },
  {
   "property": "C65",
   "status": "partial",
   "theorems": [
    "Vbt.C65_has_templates",
    "Vbt.C65_free",
    "Vbt.C65_replaced",
    "Vbt.C65_nothing_else",
    "Vbt.C65_safe",
    "Vbt.C65_no_mutation",
    "Vbt.C65_in_place",
    "Vbt.C65_shape",
    "Vbt.C65_override_partial",
    "Vbt.C65_counterexample_nested"
   ],
   "note": "Every template reachable through dictionaries, lists, tuples and sets is replaced, nothing else changes, template-free objects are returned as they are and the caller's objects are not written to, with safe and make_copy covered. Missing: an explicit entry that is a dictionary does not override a dictionary of the template, both are merged (C65_counterexample_nested); values of a mapping that are templates themselves are outside the model and are not substituted again."
  },
  {
   "property": "C66",
   "status": "proved",
   "theorems": [
    "Vbt.C66_std",
    "Vbt.C66_expanding"
   ],
   "note": "Welford recurrence with removal and compensation equals the window definition in exact arithmetic; the square root is a parameter."
  },
  {
   "property": "C67",
   "status": "proved",
   "theorems": [
    "Vbt.C67_reduce",
    "Vbt.C67_reduce_idx",
    "Vbt.C67_apply",
    "Vbt.C67_counts"
   ],
   "note": "The array-valued reducers are not modelled."
  },
  {
   "property": "C68",
   "status": "proved",
   "theorems": [
    "Vbt.C68_lookup",
    "Vbt.C68_cached",
    "Vbt.C68_returns",
    "Vbt.C68_once",
    "Vbt.C68_macd",
    "Vbt.C68_collision"
   ],
   "note": "The hash of a parameter combination is a parameter of the model; a lookup gives the value of the first combination with that hash."
  },
  {
   "property": "C69",
   "status": "proved",
   "theorems": [
    "Vbt.C69_step",
    "Vbt.C69_total",
    "Vbt.C69_past"
   ],
   "note": "An unchanged close counts as rising; the first row adds its volume."
  },
  {
   "property": "C70",
   "status": "partial",
   "theorems": [
    "Vbt.C70_requested",
    "Vbt.C70_sorted",
    "Vbt.C70_percent_buy",
    "Vbt.C70_percent_sell_long",
    "Vbt.C70_percent_sell_short"
   ],
   "note": "Percentages: zero tolerances, no costs, free cash not negative."
  },
  {
   "property": "C71",
   "status": "partial",
   "theorems": [
    "Vbt.C71_accounts_partial",
    "Vbt.C71_free_cash_partial",
    "Vbt.C71_accounts_signals_partial",
    "Vbt.C71_free_cash_signals_partial",
    "Vbt.C71_round_trip",
    "Vbt.C71_counterexample",
    "Vbt.C71_collateral_partial",
    "Vbt.C71_collateral_signals_partial"
   ],
   "note": "Zero tolerances, records of positive size (an order of size 0 that paid a fixed fee is a counterexample)."
  },
  {
   "property": "C72",
   "status": "partial",
   "theorems": [
    "Vbt.C72_assets",
    "Vbt.C72_mask",
    "Vbt.C72_mask_grouped",
    "Vbt.C72_coverage",
    "Vbt.C72_flows_partial",
    "Vbt.C72_flows_signals_partial",
    "Vbt.C72_small_trades_lost"
   ],
   "note": "Assets, masks and coverage in full; the accumulation of flows for zero tolerances. With the real tolerances it is false: flows in a direction lose trades that are small next to the position (C72_small_trades_lost)."
  },
  {
   "property": "C73",
   "status": "partial",
   "theorems": [
    "Vbt.C73_gross",
    "Vbt.C73_gross_exact",
    "Vbt.C73_gross_group",
    "Vbt.C73_gross_group_bounds",
    "Vbt.C73_net",
    "Vbt.C73_portfolio_value_partial",
    "Vbt.C73_counterexample",
    "Vbt.C73_counterexample_group"
   ],
   "note": "Bounds with any tolerances, equalities for zero tolerances; the documented division by portfolio value fails for short positions (counterexamples)."
  },
  {
   "property": "C74",
   "status": "partial",
   "theorems": [
    "Vbt.C74_auto_partial",
    "Vbt.C74_used_up_partial",
    "Vbt.C74_align_partial",
    "Vbt.C74_auto_within",
    "Vbt.C74_used_up_within",
    "Vbt.C74_align_within",
    "Vbt.C74_tolerance_counterexample"
   ],
   "note": "Finite flows. Exact with zero tolerances; with the real ones the cash series can go below zero (C74_tolerance_counterexample), by no more than add_nb may swallow (the *_within theorems)."
  },
  {
   "property": "C75",
   "status": "proved",
   "theorems": [
    "Vbt.C75_price",
    "Vbt.C75_stopped",
    "Vbt.C75_signalled",
    "Vbt.C75_hooks",
    "Vbt.C75_hooks_stopped"
   ],
   "note": "For sizes given as amounts or values, finite bars, exact arithmetic with any tolerances."
  },
  {
   "property": "C76",
   "status": "proved",
   "theorems": [
    "Vbt.C76_simulate",
    "Vbt.C76_row_wise",
    "Vbt.C76_simulate_seq",
    "Vbt.C76_row_wise_seq",
    "Vbt.C76_flex",
    "Vbt.C76_flex_row_wise"
   ],
   "note": "Callbacks are arbitrary functions of the state with memory; they are replaced by ones that also write down their calls. The run of the flexible simulators is bounded by an arbitrary fuel per segment: a run that does not end is an error in the model, so the theorem speaks about runs that end."
  },
  {
   "property": "C77",
   "status": "proved",
   "theorems": [
    "Vbt.C77_flex",
    "Vbt.C77_flex_row_wise",
    "Vbt.C77_counterexample_writes"
   ],
   "note": "Equality of the results, including errors, when the order function leaves the current values of its column alone (OrderLooks), the draws of the reject probability are the same, and the fuel exceeds every group length. Counterexample for an order function that writes to the balances."
  },
  {
   "property": "C78",
   "status": "partial",
   "theorems": [
    "Vbt.C78_positions",
    "Vbt.C78_cash",
    "Vbt.C78_solvent_partial",
    "Vbt.C78_positions_row_wise",
    "Vbt.C78_cash_row_wise",
    "Vbt.C78_solvent_row_wise_partial",
    "Vbt.C78_positions_flex",
    "Vbt.C78_cash_flex",
    "Vbt.C78_solvent_flex_partial",
    "Vbt.C78_positions_flex_row_wise",
    "Vbt.C78_cash_flex_row_wise",
    "Vbt.C78_solvent_flex_row_wise_partial",
    "Vbt.C78_counterexample_writes"
   ],
   "note": "Balances proved in full for exact arithmetic with every tolerance (bound lost); that cash is not negative needs fees above -100 % as in C01. A callback that writes to the balance breaks the agreement (counterexample)."
  },
  {
   "property": "C79",
   "status": "proved",
   "theorems": [
    "Vbt.C79_segments",
    "Vbt.C79_segments_row_wise",
    "Vbt.C79_segments_flex",
    "Vbt.C79_segments_flex_row_wise",
    "Vbt.C79_numbered",
    "Vbt.C79_last",
    "Vbt.C79_numbered_row_wise",
    "Vbt.C79_last_row_wise",
    "Vbt.C79_numbered_flex",
    "Vbt.C79_last_flex",
    "Vbt.C79_numbered_flex_row_wise",
    "Vbt.C79_last_flex_row_wise",
    "Vbt.C79_by_rows",
    "Vbt.C79_by_rows_flex",
    "Vbt.C79_by_rows_row_wise",
    "Vbt.C79_by_rows_flex_row_wise",
    "Vbt.C79_counterexample_strict"
   ],
   "note": "Every arithmetic and every callback; the positions of the last records need callbacks that do not write to last_oidx and last_lidx. Rows of one column need not strictly increase with a flexible order function (counterexample)."
  },
  {
   "property": "C80",
   "status": "proved",
   "theorems": [
    "Vbt.C80_run",
    "Vbt.C80_run_product",
    "Vbt.C80_unique",
    "Vbt.C80_loops",
    "Vbt.C80_per_column",
    "Vbt.C80_use_raw",
    "Vbt.C80_use_raw_missing",
    "Vbt.C80_raises",
    "Vbt.C80_run_combs",
    "Vbt.C80_mixed_inplace",
    "Vbt.C80_all_hidden",
    "Vbt.C80_column_inplace_fails",
    "Vbt.C80_combs_columns_fails"
   ],
   "note": "Inputs after broadcasting, two-dimensional; columns are opaque values, parameters lists of comparable values."
  },
  {
   "property": "C81",
   "status": "partial",
   "theorems": [
    "Vbt.C81_columns",
    "Vbt.C81_rows",
    "Vbt.C81_rolling",
    "Vbt.C81_expanding",
    "Vbt.C81_matrix_partial",
    "Vbt.C81_groupby",
    "Vbt.C81_groupby_matrix",
    "Vbt.C81_labels",
    "Vbt.C81_map",
    "Vbt.C81_filter",
    "Vbt.C81_reduce",
    "Vbt.C81_apply_reduce",
    "Vbt.C81_reduce_array",
    "Vbt.C81_group_columns",
    "Vbt.C81_reduce_grouped",
    "Vbt.C81_reduce_grouped_array",
    "Vbt.C81_squeeze",
    "Vbt.C81_flat_reduce",
    "Vbt.C81_flat_reduce_array",
    "Vbt.C81_flat_row",
    "Vbt.C81_flatten",
    "Vbt.C81_value_counts",
    "Vbt.C81_value_counts_total",
    "Vbt.C81_nth",
    "Vbt.C81_min_max",
    "Vbt.C81_arg_partial",
    "Vbt.C81_sum_mean",
    "Vbt.C81_idxmin",
    "Vbt.C81_counterexample_matrix",
    "Vbt.C81_counterexample_arg",
    "Vbt.C81_counterexample_any",
    "Vbt.C81_any_partial"
   ],
   "note": "Every apply, reduce, squeeze, flatten and count function puts the user function of exactly its cells in its place, for all shapes, groups and contents of uninitialised memory. Partial: rolling_matrix_apply only without missing values (it counts the missing values of the current row over all columns), positions of minimum and maximum only if some value is below infinity (above minus infinity), any_squeeze only without missing values (it takes NaN for true)."
  },
  {
   "property": "C82",
   "status": "partial",
   "theorems": [
    "Vbt.C82_rolling",
    "Vbt.C82_rolling_benchmark",
    "Vbt.C82_columns",
    "Vbt.C82_sharpe",
    "Vbt.C82_sharpe_sign",
    "Vbt.C82_sharpe_scale",
    "Vbt.C82_information",
    "Vbt.C82_counterexample_sharpe",
    "Vbt.C82_counterexample_information",
    "Vbt.C82_beta",
    "Vbt.C82_beta_affine",
    "Vbt.C82_beta_self",
    "Vbt.C82_alpha",
    "Vbt.C82_beta_not_inf",
    "Vbt.C82_omega",
    "Vbt.C82_omega_above_one",
    "Vbt.C82_counterexample_omega",
    "Vbt.C82_downside",
    "Vbt.C82_downside_zero",
    "Vbt.C82_sortino",
    "Vbt.C82_var",
    "Vbt.C82_var_mono",
    "Vbt.C82_var_affine",
    "Vbt.C82_cvar",
    "Vbt.C82_cvar_le_var",
    "Vbt.C82_counterexample_cvar",
    "Vbt.C82_capture_self",
    "Vbt.C82_up_down_capture",
    "Vbt.C82_annualized",
    "Vbt.C82_calmar",
    "Vbt.C82_counterexample_calmar",
    "Vbt.C82_tail",
    "Vbt.C82_volatility",
    "Vbt.C82_volatility_affine",
    "Vbt.C82_omega_threshold",
    "Vbt.C82_capture"
   ],
   "note": "Holds in exact arithmetic for series without infinities. Not true of the code, with witnesses: Sharpe is inf for a steady loss; information ratio of the benchmark is inf; omega of a flat series is inf; Calmar of a rising series is NaN; conditional value at risk with NaN rows can exceed value at risk."
  },
  {
   "property": "C83",
   "status": "partial",
   "theorems": [
    "Vbt.C83_execute_partial",
    "Vbt.C83_process_partial",
    "Vbt.C83_double",
    "Vbt.C83_exact",
    "Vbt.C83_zero_percent_differs",
    "Vbt.C83_granularity_differs",
    "Vbt.C83_zero_division_differs",
    "Vbt.C83_zero_division_fills",
    "Vbt.C83_nan_minimum_differs"
   ],
   "note": "Equality of the two engines on Rs.Common (all binary64 orders without granularity and locked cash, zero Percent excepted; exact arithmetic for the rest), unless Numba divides by zero. The excluded cases differ, by witnesses."
  },
  {
   "property": "C84",
   "status": "partial",
   "theorems": [
    "Vbt.C84_simulate",
    "Vbt.C84_double",
    "Vbt.C84_exact_partial",
    "Vbt.C84_flex",
    "Vbt.C84_sort_differs"
   ],
   "note": "Binary64 without locked cash and granularity (C84_simulate, C84_double); exact arithmetic with them unless Numba divides by zero (C84_exact_partial); arguments (C84_flex); a difference when short Percent orders without valuation are sorted (C84_sort_differs)."
  },
  {
   "property": "C85",
   "status": "partial",
   "theorems": [
    "Vbt.C85_simulate",
    "Vbt.C85_double",
    "Vbt.C85_no_zero_division",
    "Vbt.C85_exact_partial",
    "Vbt.C85_exception_differs",
    "Vbt.C85_division_differs"
   ],
   "note": "Both engines agree on every run of a simulation from signals: binary64 without locked cash and granularity (unless Numba divides by zero), exact arithmetic with them. Missing: locked cash and granularity in rounded arithmetic, percentage sizes with sorted calls. The class of errors differs, and divisions by zero differ (witnesses)."
  },
  {
   "property": "C86",
   "status": "partial",
   "theorems": [
    "Vbt.C86_columns",
    "Vbt.C86_group_columns",
    "Vbt.C86_groups_partial",
    "Vbt.C86_three_groups",
    "Vbt.C86_auto_align_differs",
    "Vbt.C86_shared_columns_differ",
    "Vbt.C86_shared_column_error"
   ],
   "note": "Columns: all methods (no cash sharing, or automatic cash). Groups: columns for any number of groups, results per group for one or two; for three or more proved false in general. AutoAlign and columns of groups sharing cash: false, witnesses."
  },
  {
   "property": "C87",
   "status": "partial",
   "theorems": [
    "Vbt.C87_modified",
    "Vbt.C87_check",
    "Vbt.C87_misfit",
    "Vbt.C87_resolve_group_by",
    "Vbt.C87_regroup",
    "Vbt.C87_regroup_accepts",
    "Vbt.C87_regroup_same",
    "Vbt.C87_shared_regroup",
    "Vbt.C87_shared_methods",
    "Vbt.C87_shared_ungroup",
    "Vbt.C87_resolve_partial",
    "Vbt.C87_resolve_off",
    "Vbt.C87_reduced_partial",
    "Vbt.C87_stale",
    "Vbt.C87_stale_joined"
   ],
   "note": "Restrictions, regrouping, shared cash and labels per group proved; false for a pd.Index that changes between one group and several (is_group_count_changed compares numbers of columns), proved for every such change."
  },
  {
   "property": "C88",
   "status": "partial",
   "theorems": [
    "Vbt.C88_shift",
    "Vbt.C88_diff",
    "Vbt.C88_fill",
    "Vbt.C88_rolling_extremes",
    "Vbt.C88_rolling_mean_partial",
    "Vbt.C88_rolling_mean_minp",
    "Vbt.C88_expanding_mean_partial",
    "Vbt.C88_expanding_mean_minp",
    "Vbt.C88_rolling_std",
    "Vbt.C88_ewm_mean_partial",
    "Vbt.C88_ewm_mean_span",
    "Vbt.C88_ewm_std_partial",
    "Vbt.C88_ewm_std_span",
    "Vbt.C88_expanding_extremes",
    "Vbt.C88_expanding_std_partial",
    "Vbt.C88_crossed_above",
    "Vbt.C88_mean_empty",
    "Vbt.C88_mean_rounding",
    "Vbt.C88_expanding_minp",
    "Vbt.C88_ewm_no_span",
    "Vbt.C88_expanding_std_rounding"
   ],
   "note": "Same cells in every arithmetic for shifting, filling, extremes, rolling deviation, expanding means and crossover; rolling mean and expanding deviation in exact arithmetic. Divisions by zero and minp above the rows raise in Numba only, and rounding differs: proved with witnesses."
  },
  {
   "property": "C89",
   "status": "proved",
   "theorems": [
    "Vbt.C89_ranges",
    "Vbt.C89_durations",
    "Vbt.C89_coverage",
    "Vbt.C89_coverage_differs",
    "Vbt.C89_coverage_found",
    "Vbt.C89_mask",
    "Vbt.C89_mask_found",
    "Vbt.C89_outside",
    "Vbt.C89_drawdowns",
    "Vbt.C89_argmin",
    "Vbt.C89_argmax",
    "Vbt.C89_argmin_differs"
   ],
   "note": "Both layouts; the differences (division by zero, rows outside of the index, infinities) are proved exactly or by witness."
  },
  {
   "property": "C90",
   "status": "proved",
   "theorems": [
    "Vbt.C90_entry",
    "Vbt.C90_exit",
    "Vbt.C90_positions",
    "Vbt.C90_chain",
    "Vbt.C90_streaks",
    "Vbt.C90_double",
    "Vbt.C90_exact_trades",
    "Vbt.C90_exact_positions",
    "Vbt.C90_differs",
    "Vbt.C90_positions_differs"
   ],
   "note": "both engines derive the same trades and positions; differences where products underflow or trades are not listed by column"
  },
  {
   "property": "C91",
   "status": "partial",
   "theorems": [
    "Vbt.C91_flows",
    "Vbt.C91_running",
    "Vbt.C91_value",
    "Vbt.C91_groups",
    "Vbt.C91_lengths_differ",
    "Vbt.C91_init_cash",
    "Vbt.C91_init_cash_differs",
    "Vbt.C91_sim_order",
    "Vbt.C91_profit",
    "Vbt.C91_returns",
    "Vbt.C91_benchmark",
    "Vbt.C91_benchmark_start",
    "Vbt.C91_benchmark_differs",
    "Vbt.C91_benchmark_grouped"
   ],
   "note": "Differences between the engines: unchecked group lengths, NaN as initial cash of a group, rounding of the benchmark value; each is proved with a witness."
  },
  {
   "property": "C92",
   "status": "proved",
   "theorems": [
    "Vbt.C92_clean",
    "Vbt.C92_stop_exits",
    "Vbt.C92_stop_turns",
    "Vbt.C92_stop_turns_end",
    "Vbt.C92_ohlc_exits",
    "Vbt.C92_ohlc_turns",
    "Vbt.C92_ohlc_turns_end",
    "Vbt.C92_ranges",
    "Vbt.C92_ranks",
    "Vbt.C92_nth_index",
    "Vbt.C92_norm_avg_index",
    "Vbt.C92_norm_avg_bounds"
   ],
   "note": "Rust signals are the Numba signals for all arrays; average index for sums of rows up to 2^53; random generators not modelled."
  },
  {
   "property": "C93",
   "status": "proved",
   "theorems": [
    "Vbt.Engine.C93_numba",
    "Vbt.Engine.C93_rust",
    "Vbt.Engine.C93_auto",
    "Vbt.Engine.C93_invalid",
    "Vbt.Engine.C93_looked_up_once",
    "Vbt.Engine.C93_random",
    "Vbt.Engine.C93_seed",
    "Vbt.Engine.C93_combine",
    "Vbt.Engine.C93_array",
    "Vbt.Engine.C93_exact",
    "Vbt.Engine.C93_rolling",
    "Vbt.Engine.C93_mask",
    "Vbt.Engine.C93_flex",
    "Vbt.Engine.C93_flex_prepared",
    "Vbt.Engine.C93_stop_ex",
    "Vbt.Engine.C93_negative_wait",
    "Vbt.Engine.C93_number_for_array",
    "Vbt.Engine.C93_number_changed",
    "Vbt.Engine.C93_infinity",
    "Vbt.Engine.C93_columns"
   ],
   "note": "stated with the exceptions that the code has; the exceptions are proved by witnesses"
  },
  {
   "property": "C94",
   "status": "partial",
   "theorems": [
    "Vbt.RsRet.C94_returns",
    "Vbt.RsRet.C94_returns_raises",
    "Vbt.RsRet.C94_cum_returns",
    "Vbt.RsRet.C94_products",
    "Vbt.RsRet.C94_deviations",
    "Vbt.RsRet.C94_layouts",
    "Vbt.RsRet.C94_shapes",
    "Vbt.RsRet.C94_drawdowns",
    "Vbt.RsRet.C94_no_rows",
    "Vbt.RsRet.C94_omega",
    "Vbt.RsRet.C94_downside",
    "Vbt.RsRet.C94_beta_alpha",
    "Vbt.RsRet.C94_captures",
    "Vbt.RsRet.C94_quantiles",
    "Vbt.RsRet.C94_cond_value_at_risk",
    "Vbt.RsRet.C94_rolling",
    "Vbt.RsRet.C94_rolling_pair",
    "Vbt.RsRet.C94_rolling_sound",
    "Vbt.RsRet.C94_rolling_exact",
    "Vbt.RsRet.C94_rolling_benchmark",
    "Vbt.RsRet.C94_rolling_raising",
    "Vbt.RsRet.C94_zero_exponent",
    "Vbt.RsRet.C94_empty_window",
    "Vbt.RsRet.C94_no_columns",
    "Vbt.RsRet.C94_counterexample_rounding",
    "Vbt.RsRet.C94_one_dim"
   ],
   "note": "returns, products, omega, downside, beta, alpha and captures with rounding; deviations and drawdowns only in exact arithmetic, where binary64 differs in the last digits; quantiles without infinities; differences have witnesses"
  },
  {
   "property": "C95",
   "status": "partial",
   "theorems": [
    "Vbt.C95_map",
    "Vbt.C95_map_select",
    "Vbt.C95_range",
    "Vbt.C95_select",
    "Vbt.C95_records_map_partial",
    "Vbt.C95_records_range_partial",
    "Vbt.C95_strided_false",
    "Vbt.C95_compatible",
    "Vbt.C95_sorted",
    "Vbt.C95_expandable",
    "Vbt.C95_expand",
    "Vbt.C95_expand_same",
    "Vbt.C95_stack",
    "Vbt.C95_stack_empty",
    "Vbt.C95_counts",
    "Vbt.C95_masks",
    "Vbt.C95_top",
    "Vbt.C95_bottom",
    "Vbt.C95_selects",
    "Vbt.C95_negative",
    "Vbt.C95_map_panics",
    "Vbt.C95_one_column"
   ],
   "note": "equal on column numbers in range and contiguous record arrays; strided record views, negative n, stacking without columns and columns out of range differ, with witnesses"
  },
  {
   "property": "C96",
   "status": "partial",
   "theorems": [
    "Vbt.C96_future_mean_exact",
    "Vbt.C96_mean_labels_exact",
    "Vbt.C96_future_ewm_mean",
    "Vbt.C96_mean_layout",
    "Vbt.C96_future_std_partial",
    "Vbt.C96_future_std_col",
    "Vbt.C96_future_ewm_std",
    "Vbt.C96_future_extremes",
    "Vbt.C96_fixed_labels",
    "Vbt.C96_std_layouts_differ",
    "Vbt.C96_mean_engines_differ",
    "Vbt.C96_empty_period",
    "Vbt.C96_local_extrema",
    "Vbt.C96_bn_trend",
    "Vbt.C96_bn_cont_sat",
    "Vbt.C96_pct_trend",
    "Vbt.C96_trend_labels",
    "Vbt.C96_breakout",
    "Vbt.C96_pct_zero",
    "Vbt.C96_sat_zero"
   ],
   "note": "Deviation in row order only in exact arithmetic without infinities; mean in exact arithmetic; division by zero excepted, with witnesses of the differences."
  },
  {
   "property": "C97",
   "status": "partial",
   "theorems": [
    "Vbt.C97_ma",
    "Vbt.C97_mstd",
    "Vbt.C97_bbands",
    "Vbt.C97_rsi",
    "Vbt.C97_stoch",
    "Vbt.C97_macd",
    "Vbt.C97_atr",
    "Vbt.C97_true_range",
    "Vbt.C97_true_range_1d",
    "Vbt.C97_obv",
    "Vbt.C97_lengths",
    "Vbt.C97_shapes",
    "Vbt.C97_ma_double",
    "Vbt.C97_macd_lengths"
   ],
   "note": "Averages with a plain window in exact arithmetic only: in doubles the engines differ (C97_ma_double). Numba engine for arrays of one shape."
  },
  {
   "property": "C98",
   "status": "partial",
   "theorems": [
    "Vbt.C98_mask",
    "Vbt.C98_mask_mult",
    "Vbt.C98_fillna",
    "Vbt.C98_mask_1d",
    "Vbt.C98_cumulative",
    "Vbt.C98_sums",
    "Vbt.C98_extremes",
    "Vbt.C98_extremes_empty",
    "Vbt.C98_median",
    "Vbt.C98_std_partial",
    "Vbt.C98_std_layout_differs",
    "Vbt.C98_describe_partial",
    "Vbt.C98_describe_differs",
    "Vbt.C98_elements",
    "Vbt.C98_flatten",
    "Vbt.C98_flatten_grouped",
    "Vbt.C98_flatten_uniform",
    "Vbt.C98_value_counts",
    "Vbt.C98_negative_code_differs",
    "Vbt.C98_refused",
    "Vbt.C98_drawdowns"
   ],
   "note": "Deviations and summaries agree in exact arithmetic only; in doubles they differ (witnesses). Everything else for every rounding."
  },
  {
   "property": "C99",
   "status": "proved",
   "theorems": [
    "Vbt.C99_rand",
    "Vbt.C99_prob",
    "Vbt.C99_prob_extremes",
    "Vbt.C99_rand_ex",
    "Vbt.C99_ex_prob",
    "Vbt.C99_ex_certain",
    "Vbt.C99_enex",
    "Vbt.C99_enex_count",
    "Vbt.C99_enex_error",
    "Vbt.C99_enex_none",
    "Vbt.C99_enex_default",
    "Vbt.C99_enex_crowded",
    "Vbt.C99_enex_prob",
    "Vbt.C99_enex_prob_rows",
    "Vbt.C99_enex_prob_turns",
    "Vbt.C99_enex_prob_first"
   ],
   "note": "Draws are arguments; up to 2^50 rows; the promises that the code breaks (crowded rows with both waits 1, n = 0) are stated as theorems about what it does instead."
  },
  {
   "property": "C100",
   "status": "proved",
   "theorems": [
    "Vbt.C100_rand",
    "Vbt.C100_rand_count",
    "Vbt.C100_prob",
    "Vbt.C100_rand_ex",
    "Vbt.C100_ex_prob",
    "Vbt.C100_enex",
    "Vbt.C100_pairs",
    "Vbt.C100_none_differs",
    "Vbt.C100_enex_prob",
    "Vbt.C100_enex_prob_blocks"
   ],
   "note": "Equality of the engines for the same draws; one column at a time; the generator itself is not modelled."
  },
  {
   "property": "C101",
   "status": "proved",
   "theorems": [
    "Vbt.C101_repeat",
    "Vbt.C101_tile",
    "Vbt.C101_default",
    "Vbt.C101_stack",
    "Vbt.C101_stack_raises",
    "Vbt.C101_stack_tells_apart",
    "Vbt.C101_stack_forgets",
    "Vbt.C101_keep_case",
    "Vbt.C101_combine_total",
    "Vbt.C101_combine_rows",
    "Vbt.C101_combine_named",
    "Vbt.C101_tile_keys",
    "Vbt.C101_repeat_keys",
    "Vbt.C101_no_keys",
    "Vbt.C101_wrong_keys",
    "Vbt.C101_tile_keys_forgets",
    "Vbt.C101_rename",
    "Vbt.C101_rename_missing",
    "Vbt.C101_rename_multi_kept",
    "Vbt.C101_rename_writes",
    "Vbt.C101_rename_writes_and_raises",
    "Vbt.C101_pick",
    "Vbt.C101_pick_more"
   ],
   "note": "All indexes, options and repetitions; five findings with witnesses."
  },
  {
   "property": "C102",
   "status": "partial",
   "theorems": [
    "Vbt.C102_array",
    "Vbt.C102_array_all",
    "Vbt.C102_array_raises",
    "Vbt.C102_array_loses",
    "Vbt.C102_df_labels",
    "Vbt.C102_df_partial",
    "Vbt.C102_df_iff",
    "Vbt.C102_df_wrong",
    "Vbt.C102_frame_column",
    "Vbt.C102_frame_row",
    "Vbt.C102_symmetric_cells",
    "Vbt.C102_symmetric_iff",
    "Vbt.C102_not_symmetric"
   ],
   "note": "unstack_to_df labels values rightly only if the labels come sorted (C102_df_iff, C102_df_wrong); everything else is proved."
  },
  {
   "property": "C103",
   "status": "partial",
   "theorems": [
    "Vbt.C103_shape_exists",
    "Vbt.C103_shape_least",
    "Vbt.C103_shape_order",
    "Vbt.C103_values",
    "Vbt.C103_cells",
    "Vbt.C103_elements",
    "Vbt.C103_index_stack",
    "Vbt.C103_stack",
    "Vbt.C103_strict_partial",
    "Vbt.C103_strict_raises",
    "Vbt.C103_keep",
    "Vbt.C103_to_frame",
    "Vbt.C103_to_series",
    "Vbt.C103_array_of",
    "Vbt.C103_array_of_full",
    "Vbt.C103_axis_of",
    "Vbt.C103_strict_default",
    "Vbt.C103_columns_by_position",
    "Vbt.C103_series_as_row",
    "Vbt.C103_empty_raises",
    "Vbt.C103_names_dropped",
    "Vbt.C103_given",
    "Vbt.C103_from_argument",
    "Vbt.C103_reset",
    "Vbt.C103_kinds",
    "Vbt.C103_to_array",
    "Vbt.C103_stack_raises",
    "Vbt.C103_axis_missing",
    "Vbt.C103_labels_shared"
   ],
   "note": "Values, shapes, stacked, kept and given labels proved for all arguments. The rule 'strict' is proved for objects with labels of their own; the claim of the documentation that all objects have the same labels is false for default labels (C103_strict_default)."
  },
  {
   "property": "C104",
   "status": "partial",
   "theorems": [
    "Vbt.C104_win_rate",
    "Vbt.C104_win_rate_share",
    "Vbt.C104_profit_factor",
    "Vbt.C104_profit_factor_total",
    "Vbt.C104_expectancy",
    "Vbt.C104_expectancy_iff",
    "Vbt.C104_expectancy_partial",
    "Vbt.C104_expectancy_even",
    "Vbt.C104_sqn",
    "Vbt.C104_stats",
    "Vbt.C104_open_pnl",
    "Vbt.C104_streak",
    "Vbt.C104_best_worst",
    "Vbt.C104_win_rate_ignores_open"
   ],
   "note": "Statistics of trades reduced to the trades of the column or group. The claim that expectancy is the average profit is false with trades that end even: exact condition and witness; the win rate of stats ignores incl_open."
  },
  {
   "property": "C105",
   "status": "proved",
   "theorems": [
    "Vbt.C105_enums",
    "Vbt.C105_name",
    "Vbt.C105_unknown",
    "Vbt.C105_int",
    "Vbt.C105_others",
    "Vbt.C105_accumulate",
    "Vbt.C105_array",
    "Vbt.C105_array_error",
    "Vbt.C105_first_decides",
    "Vbt.C105_list",
    "Vbt.C105_frame",
    "Vbt.C105_again",
    "Vbt.C105_value",
    "Vbt.C105_round_trip",
    "Vbt.C105_mixed",
    "Vbt.C105_missing",
    "Vbt.C105_collision",
    "Vbt.C105_alias"
   ],
   "note": "All spellings, scalars, arrays, frames and nested lists, for every sane enum; the library's enums are sane. Findings: object arrays are judged by their first value."
  },
  {
   "property": "C106",
   "status": "partial",
   "theorems": [
    "Vbt.C106_max",
    "Vbt.C106_returns_partial",
    "Vbt.C106_portfolio",
    "Vbt.C106_active",
    "Vbt.C106_durations",
    "Vbt.C106_no_drawdown_counterexample"
   ],
   "note": "Maximum drawdown of records is the lowest drawdown of the rows; the documented equality with max_drawdown of returns holds whenever there is a drawdown and fails otherwise (0 against NaN). Active figures characterised in full. Exact arithmetic, finite values."
  },
  {
   "property": "C107",
   "status": "partial",
   "theorems": [
    "Vbt.C107_orders",
    "Vbt.C107_value",
    "Vbt.C107_benchmark",
    "Vbt.C107_defaults",
    "Vbt.C107_infinite",
    "Vbt.C107_group_counterexample",
    "Vbt.C107_init_cash_counterexample",
    "Vbt.C107_use_stops",
    "Vbt.C107_stops_resolved",
    "Vbt.C107_conflict",
    "Vbt.C107_one_simulation",
    "Vbt.C107_direction",
    "Vbt.C107_init_cash",
    "Vbt.C107_grouping"
   ],
   "note": "Holding equals the benchmark for columns on their own with enough cash; false for groups sharing cash and for integer initial cash 0 or 1, with witnesses. Resolution of arguments and equality of the array and callback simulators are proved in full."
  },
  {
   "property": "C108",
   "status": "partial",
   "theorems": [
    "Vbt.C108_total",
    "Vbt.C108_rate",
    "Vbt.C108_overlap",
    "Vbt.C108_nth",
    "Vbt.C108_nth_gaps",
    "Vbt.C108_nth_negative_counterexample",
    "Vbt.C108_partitions",
    "Vbt.C108_partition_rate",
    "Vbt.C108_norm_avg",
    "Vbt.C108_norm_avg_mirror",
    "Vbt.C108_norm_avg_group",
    "Vbt.C108_single_row_counterexample",
    "Vbt.C108_group_index",
    "Vbt.C108_group_index_counterexample"
   ],
   "note": "All statistics are proved for all masks; negative positions of nth and from_nth, the index of a group with simultaneous signals and groups with a single row are findings with witnesses."
  },
  {
   "property": "C109",
   "status": "partial",
   "theorems": [
    "Vbt.C109_sort",
    "Vbt.C109_sort_ids",
    "Vbt.C109_sort_twice",
    "Vbt.C109_sort_reduce",
    "Vbt.C109_sort_group_counterexample",
    "Vbt.C109_mask",
    "Vbt.C109_pick",
    "Vbt.C109_pick_group_counterexample",
    "Vbt.C109_combine",
    "Vbt.C109_combine_laws",
    "Vbt.C109_counts",
    "Vbt.C109_counts_order",
    "Vbt.C109_counts_total"
   ],
   "note": "Proved for all mapped arrays; that top_n follows its argument group_by and that sorting keeps the order within groups are false, with witnesses."
  },
  {
   "property": "C110",
   "status": "partial",
   "theorems": [
    "Vbt.C110_apply",
    "Vbt.C110_combine_concat",
    "Vbt.C110_combine_fold",
    "Vbt.C110_logic",
    "Vbt.C110_numba_loop",
    "Vbt.C110_single_other",
    "Vbt.C110_single_counterexample",
    "Vbt.C110_default_columns_counterexample",
    "Vbt.C110_no_others",
    "Vbt.C110_shape"
   ],
   "note": "Inputs are already broadcast; exact labels for named levels; types of elements, Ray and keep_pd are left out. Findings by witness."
  },
  {
   "property": "C111",
   "status": "partial",
   "theorems": [
    "Vbt.C111_accepts",
    "Vbt.C111_reads",
    "Vbt.C111_groups",
    "Vbt.C111_one_row_rejected",
    "Vbt.C111_empty_rows"
   ],
   "note": "Selections of positions per axis; selection of groups and of columns only is in C86; label-changing operations left out. Findings proved."
  },
  {
   "property": "C112",
   "status": "partial",
   "theorems": [
    "Vbt.C112_names",
    "Vbt.C112_distinct_names",
    "Vbt.C112_lost_counterexample",
    "Vbt.C112_missing_filter",
    "Vbt.C112_value",
    "Vbt.C112_report",
    "Vbt.C112_same_title",
    "Vbt.C112_unknown",
    "Vbt.C112_unmatched_key",
    "Vbt.C112_titles"
   ],
   "note": "Templates are replaced and outputs of calc_func are given; wrapping of the dictionary is left out. Findings proved."
  },
  {
   "property": "C113",
   "status": "partial",
   "theorems": [
    "Vbt.C113_transparent_partial",
    "Vbt.C113_lookup",
    "Vbt.C113_no_caching",
    "Vbt.C113_arguments",
    "Vbt.C113_explicit_ignored",
    "Vbt.C113_hook_ignored",
    "Vbt.C113_trades_type_ignored",
    "Vbt.C113_asset_returns_counterexample"
   ],
   "note": "Caching is transparent for reports without explicit arguments and with a stable hook; the general claim is false (C113_explicit_ignored, C113_trades_type_ignored, C113_asset_returns_counterexample)"
  },
  {
   "property": "C114",
   "status": "proved",
   "theorems": [
    "Vbt.C114_accepts",
    "Vbt.C114_contents",
    "Vbt.C114_round_trip",
    "Vbt.C114_zero_name",
    "Vbt.C114_caller_changed",
    "Vbt.C114_fill",
    "Vbt.C114_fill_reduced",
    "Vbt.C114_reduced_columns",
    "Vbt.C114_reduced_arrays",
    "Vbt.C114_reduced_scalar",
    "Vbt.C114_to_index",
    "Vbt.C114_to_index_all",
    "Vbt.C114_reduced_to_index",
    "Vbt.C114_series_to_index",
    "Vbt.C114_wrap_to_index",
    "Vbt.C114_nan_raises"
   ],
   "note": "All arrays, labels and groupings; element types and time deltas are left out; findings C114_zero_name, C114_caller_changed, C114_nan_raises, C114_fill_reduced"
  },
  {
   "property": "C115",
   "status": "proved",
   "theorems": [
    "Vbt.C115_seconds",
    "Vbt.C115_units",
    "Vbt.C115_negative_units",
    "Vbt.C115_float",
    "Vbt.C115_aware",
    "Vbt.C115_aware_kept",
    "Vbt.C115_naive",
    "Vbt.C115_convert",
    "Vbt.C115_datetime64",
    "Vbt.C115_raises",
    "Vbt.C115_ms",
    "Vbt.C115_round_trip",
    "Vbt.C115_interval",
    "Vbt.C115_early_ms_counterexample",
    "Vbt.C115_negative_counterexample",
    "Vbt.C115_dst_counterexample"
   ],
   "note": "Which integers are read in which unit, when an aware datetime keeps its instant, and which intervals are understood are stated as equivalences; the findings are proved. Rounding to microseconds and the parsing of strings are not modelled."
  },
  {
   "property": "C116",
   "status": "proved",
   "theorems": [
    "Vbt.C116_select_one",
    "Vbt.C116_default",
    "Vbt.C116_no_column",
    "Vbt.C116_from_obj",
    "Vbt.C116_agree",
    "Vbt.C116_one_row",
    "Vbt.C116_setting",
    "Vbt.C116_single_group",
    "Vbt.C116_repeated"
   ],
   "note": "Success and the unit selected are stated as equivalences for select_one and select_one_from_obj; the findings are proved. Groups are selected as units (the default)."
  },
  {
   "property": "C117",
   "status": "proved",
   "theorems": [
    "Vbt.C117_parse",
    "Vbt.C117_unexpected",
    "Vbt.C117_plain",
    "Vbt.C117_time",
    "Vbt.C117_time_alone"
   ],
   "note": "The accepted arguments, the unit and the times of day are stated as equivalences. The package schedule, outside the repository, is modelled as far as it decides about the arguments."
  },
  {
   "property": "C118",
   "status": "proved",
   "theorems": [
    "Vbt.C118_covers",
    "Vbt.C118_both",
    "Vbt.C118_refl",
    "Vbt.C118_longer",
    "Vbt.C118_config",
    "Vbt.C118_nested_exact",
    "Vbt.C118_configured"
   ],
   "note": "is_deep_equal is characterised by the paths of the first argument; the comparisons of arrays and leaves are parameters. The findings are proved."
  },
  {
   "property": "C119",
   "status": "proved",
   "theorems": [
    "Vbt.C119_sizes",
    "Vbt.C119_opacities",
    "Vbt.C119_range",
    "Vbt.C119_zero_range",
    "Vbt.C119_series"
   ],
   "note": "Rationals without rounding; returns not missing and the range above zero. Findings: C119_zero_range, undrawn trades in C119_series."
  },
  {
   "property": "C120",
   "status": "proved",
   "theorems": [
    "Vbt.C120_convert",
    "Vbt.C120_round_trip",
    "Vbt.C120_through",
    "Vbt.C120_no_zone",
    "Vbt.C120_order"
   ],
   "note": "Zones whose offset does not change during the day of the call. Findings: C120_no_zone, C120_order."
  },
  {
   "property": "C121",
   "status": "proved",
   "theorems": [
    "Vbt.C121_names",
    "Vbt.C121_follow",
    "Vbt.C121_string",
    "Vbt.C121_last",
    "Vbt.C121_tuple_path",
    "Vbt.C121_pair",
    "Vbt.C121_empty",
    "Vbt.C121_all"
   ],
   "note": "Iterables without a length left out. Findings: C121_tuple_path, C121_pair."
  },
  {
   "property": "C122",
   "status": "proved",
   "theorems": [
    "Vbt.C122_complete",
    "Vbt.C122_binance",
    "Vbt.C122_limit_one",
    "Vbt.C122_ends",
    "Vbt.C122_increasing",
    "Vbt.C122_gap",
    "Vbt.C122_retry",
    "Vbt.C122_error"
   ],
   "note": "Exchange as an argument; conversion into frames left out. Findings: C122_limit_one, C122_gap, retries=0 in C122_retry."
  },
  {
   "property": "C123",
   "status": "proved",
   "theorems": [
    "Vbt.C123_price",
    "Vbt.C123_positive",
    "Vbt.C123_update",
    "Vbt.C123_period",
    "Vbt.C123_one_row"
   ],
   "note": "Factor of a step as a parameter, one path. Findings: C123_period, C123_one_row."
  },
  {
   "property": "C124",
   "status": "proved",
   "theorems": [
    "Vbt.C124_level",
    "Vbt.C124_inverse",
    "Vbt.C124_mirror"
   ],
   "note": "Exact arithmetic, positive prices and thresholds."
  },
  {
   "property": "C125",
   "status": "proved",
   "theorems": [
    "Vbt.C125_number",
    "Vbt.C125_prob",
    "Vbt.C125_refused"
   ],
   "note": "Up to the generation of the signals."
  }
 ]
}