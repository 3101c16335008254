# Axioms of the property theorems

Output of `#print axioms` for every theorem named in MANIFEST.json, in short form.
`std` stands for `propext, Classical.choice, Quot.sound`.

| property | theorem | axioms |
|---|---|---|
| C01 | `C01_never_negative_partial` | std |
| C01 | `C01_history_never_negative_partial` | std |
| C01 | `C01_cash_nonneg_partial` | std |
| C01 | `C01_healthy_partial` | std |
| C01 | `C01_history_partial` | std |
| C01 | `C01_counterexample_fees` | std |
| C01 | `C01_counterexample_nan` | std |
| C02 | `C02_buy` | std |
| C02 | `C02_sell` | std |
| C02 | `C02_exact` | std |
| C02 | `C02_infinite_cash` | std |
| C02 | `C02_run` | std |
| C02 | `C02_run_signals` | std |
| C03 | `C03_not_filled` | std |
| C03 | `C03_exact` | std |
| C04 | `C04_contradiction` | std |
| C04 | `C04_direction_partial` | std |
| C04 | `C04_history_partial` | std |
| C04 | `C04_counterexample` | std |
| C05 | `C05_cost_model` | std |
| C05 | `C05_price` | std |
| C06 | `C06_size_partial` | std |
| C06 | `C06_counterexample` | std |
| C07 | `C07_debt_step_partial` | std |
| C07 | `C07_debt_history_partial` | std |
| C07 | `C07_booked_step_partial` | std |
| C07 | `C07_booked_history_partial` | std |
| C07 | `C07_counterexample` | std |
| C08 | `C08_free_cash_step_partial` | std |
| C08 | `C08_free_cash_history_partial` | std |
| C08 | `C08_counterexample` | std |
| C09 | `C09_side` | std |
| C09 | `C09_requested` | std |
| C09 | `C09_target` | std |
| C09 | `C09_filled_in_full` | std |
| C09 | `C09_percent_buy` | std |
| C09 | `C09_percent_sell_long` | std |
| C09 | `C09_percent_sell_short` | std |
| C10 | `C10_value_filled` | std |
| C10 | `C10_value_not_filled` | std |
| C11 | `C11_nan_size` | std |
| C11 | `C11_nan_price` | std |
| C11 | `C11_invalid_raises` | std |
| C11 | `C11_valid` | std |
| C11 | `C11_exactly` | std |
| C12 | `C12_zero` | std |
| C12 | `C12_one` | std |
| C12 | `C12_otherwise` | std |
| C13 | `C13_from_orders` | std |
| C13 | `C13_from_signals` | std |
| C14 | `C14_exactly` | std |
| C14 | `C14_default_never` | std |
| C14 | `C14_no_overflow` | std |
| C14 | `C14_exactly_signals` | std |
| C14 | `C14_default_never_signals` | std |
| C14 | `C14_no_overflow_signals` | std |
| C14 | `C14_no_overflow_signal_func` | std |
| C15 | `C15_rows_before` | std |
| C15 | `C15_single_group` | std |
| C15 | `C15_from_signals` | std |
| C15 | `C15_from_signal_func` | std |
| C16 | `C16_group` | std |
| C16 | `C16_from_signals` | std |
| C16 | `C16_from_signal_func` | std |
| C17 | `C17_balances_partial` | std |
| C17 | `C17_free_cash_partial` | std |
| C17 | `C17_reaches_end` | std |
| C18 | `C18_assets_partial` | std |
| C18 | `C18_cash_partial` | std |
| C18 | `C18_cash_grouped_partial` | std |
| C18 | `C18_counterexample_tolerance` | std |
| C18 | `C18_assets_signals_partial` | std |
| C18 | `C18_cash_signals_partial` | std |
| C18 | `C18_cash_grouped_signals_partial` | std |
| C18 | `C18_assets_within` | std |
| C18 | `C18_cash_within` | std |
| C18 | `C18_cash_grouped_within` | std |
| C18 | `C18_assets_signals_within` | std |
| C18 | `C18_cash_signals_within` | std |
| C18 | `C18_cash_grouped_signals_within` | std |
| C19 | `C19_total_profit` | std |
| C19 | `C19_no_orders` | std |
| C19 | `C19_ids` | std |
| C19 | `C19_grouped` | std |
| C19 | `C19_simulated` | std |
| C19 | `C19_signals` | std |
| C19 | `C19_records_within` | std |
| C19 | `C19_series_within` | std |
| C19 | `C19_simulated_within` | std |
| C19 | `C19_signals_within` | std |
| C19 | `C19_counterexample_tolerance` | std |
| C20 | `C20_profit_partial` | std |
| C20 | `C20_tolerance_counterexample` | std |
| C21 | `C21_trades` | std |
| C21 | `C21_sizes` | std |
| C21 | `C21_rows` | std |
| C21 | `C21_open` | std |
| C22 | `C22_same_positions_partial` | std |
| C22 | `C22_clear_partial` | std |
| C22 | `C22_tolerance_counterexample` | std |
| C23 | `C23_winning` | std |
| C23 | `C23_losing` | std |
| C23 | `C23_no_win` | std |
| C24 | `C24_default` | Quot.sound, propext |
| C24 | `C24_reversed` | std |
| C24 | `C24_random` | std |
| C24 | `C24_builders_agree` | Quot.sound, propext |
| C25 | `C25_sorted` | std |
| C25 | `C25_nan_last` | std |
| C25 | `C25_calls` | std |
| C25 | `C25_sells_first` | std |
| C25 | `C25_sort_call_seq_out` | std |
| C26 | `C26_conflict` | std |
| C26 | `C26_conflict_both` | std |
| C26 | `C26_entries` | std |
| C26 | `C26_opposite_short` | std |
| C26 | `C26_opposite_long` | std |
| C26 | `C26_no_conflict` | Quot.sound, propext |
| C26 | `C26_no_dir_conflict` | Quot.sound, propext |
| C26 | `C26_unchanged` | Quot.sound, propext |
| C26 | `C26_settled_partial` | Quot.sound, propext |
| C26 | `C26_from_input` | Quot.sound, propext |
| C26 | `C26_nan_counterexample` | Quot.sound, propext |
| C26 | `C26_cross_counterexample` | Quot.sound, propext |
| C27 | `C27_order` | std |
| C27 | `C27_nan_closes` | std |
| C27 | `C27_nothing` | std |
| C27 | `C27_no_order` | std |
| C27 | `C27_side` | std |
| C27 | `C27_exit` | std |
| C27 | `C27_fails` | std |
| C27 | `C27_stop` | std |
| C28 | `C28_agree` | std |
| C28 | `C28_dir` | std |
| C28 | `C28_ls` | std |
| C28 | `C28_modes` | std |
| C28 | `C28_no_signal` | std |
| C29 | `C29_down` | std |
| C29 | `C29_up` | std |
| C29 | `C29_within` | std |
| C29 | `C29_not_held` | std |
| C29 | `C29_negative` | std |
| C29 | `C29_order_stop` | std |
| C30 | `C30_tightens` | std |
| C30 | `C30_extreme` | std |
| C30 | `C30_fixed` | std |
| C30 | `C30_opened` | std |
| C30 | `C30_closed` | std |
| C30 | `C30_level` | std |
| C30 | `C30_still_hit` | std |
| C31 | `C31_cleaned` | std |
| C31 | `Cleaned.unique` | Quot.sound, propext |
| C31 | `C31_never_both` | std |
| C31 | `C31_idempotent` | std |
| C32 | `C32_windows` | std |
| C32 | `C32_exit_after_entry` | std |
| C32 | `C32_no_error` | std |
| C32 | `C32_skip_partial` | std |
| C32 | `C32_skip_counterexample` | none |
| C33 | `C33_turns` | std |
| C33 | `C33_alternate_partial` | std |
| C33 | `C33_never_coincide_partial` | std |
| C33 | `C33_alternate_first` | std |
| C33 | `C33_terminates_partial` | std |
| C33 | `C33_fuel` | none |
| C33 | `C33_succeeds` | std |
| C33 | `C33_endless_counterexample` | Quot.sound, propext |
| C33 | `C33_coincide_counterexample` | std |
| C34 | `C34_records` | Quot.sound, propext |
| C34 | `C34_between` | std |
| C34 | `C34_between_two` | std |
| C34 | `C34_between_two_other` | std |
| C34 | `C34_partitions` | std |
| C34 | `C34_partitions_cover` | std |
| C34 | `C34_between_partitions` | std |
| C35 | `C35_position` | std |
| C35 | `C35_partition` | std |
| C35 | `C35_not_ranked` | Quot.sound, propext |
| C36 | `C36_forward` | Quot.sound, propext |
| C36 | `C36_backward` | Quot.sound, propext |
| C36 | `C36_forward_backward` | Quot.sound, propext |
| C36 | `C36_backward_forward` | Quot.sound, propext |
| C36 | `C36_all` | Quot.sound, propext |
| C36 | `C36_add` | Quot.sound, propext |
| C37 | `C37_forward` | Quot.sound, propext |
| C37 | `C37_forward_keeps` | Quot.sound, propext |
| C37 | `C37_forward_idempotent` | Quot.sound, propext |
| C37 | `C37_backward` | std |
| C37 | `C37_mirror` | std |
| C37 | `C37_backward_keeps` | std |
| C37 | `C37_backward_idempotent` | std |
| C38 | `C38_minp` | std |
| C38 | `C38_min` | std |
| C38 | `C38_max` | std |
| C38 | `C38_expanding_min` | std |
| C38 | `C38_expanding_max` | std |
| C38 | `C38_mean_partial` | std |
| C38 | `C38_expanding_mean` | std |
| C38 | `C38_counterexample_inf` | std |
| C38 | `C38_counterexample_empty` | std |
| C39 | `C39_fshift` | Quot.sound, propext |
| C39 | `C39_diff` | std |
| C39 | `C39_ffill` | Quot.sound, propext |
| C39 | `C39_rollingMin` | Quot.sound, propext |
| C39 | `C39_rollingMax` | Quot.sound, propext |
| C39 | `C39_rollingMean` | std |
| C39 | `C39_rollingStd` | std |
| C39 | `C39_ewmMean` | std |
| C39 | `C39_ewmStd` | std |
| C39 | `C39_expandingMin` | Quot.sound, propext |
| C39 | `C39_expandingMax` | Quot.sound, propext |
| C39 | `C39_expandingMean` | std |
| C39 | `C39_expandingStd` | std |
| C39 | `C39_rollingApply` | Quot.sound, propext |
| C39 | `C39_expandingApply` | Quot.sound, propext |
| C39 | `C39_crossedAbove` | Quot.sound, propext |
| C39 | `C39_returns` | std |
| C39 | `C39_cumReturns` | std |
| C39 | `C39_drawdown` | std |
| C40 | `C40_drawdowns` | std |
| C40 | `C40_disjoint` | std |
| C40 | `C40_rows` | std |
| C40 | `C40_durations` | std |
| C40 | `C40_covered_partial` | std |
| C40 | `C40_counterexample_nan` | Quot.sound, propext |
| C40 | `C40_records` | Quot.sound, propext |
| C41 | `C41_ranges` | std |
| C41 | `C41_records` | Quot.sound, propext |
| C41 | `C41_mask_any` | std |
| C41 | `C41_mask` | std |
| C41 | `C41_duration` | std |
| C41 | `C41_coverage_any` | std |
| C41 | `C41_coverage` | std |
| C41 | `C41_groups` | std |
| C41 | `C41_groups_bound` | std |
| C41 | `C41_groups_counterexample` | std |
| C42 | `C42_crossed` | std |
| C42 | `C42_now` | std |
| C42 | `C42_once` | std |
| C42 | `C42_negative` | std |
| C43 | `C43_returns` | std |
| C43 | `C43_roundtrip_partial` | std |
| C43 | `C43_total_partial` | std |
| C43 | `C43_counterexample_negative` | std |
| C44 | `C44_drawdown_partial` | std |
| C44 | `C44_max_partial` | std |
| C44 | `C44_counterexample_positive` | std |
| C44 | `C44_counterexample_total_loss` | std |
| C44 | `C44_first_row` | std |
| C45 | `C45_map` | std |
| C45 | `C45_ascending` | std |
| C45 | `C45_map_select` | std |
| C45 | `C45_records` | std |
| C45 | `C45_record_map_select` | std |
| C45 | `C45_is_sorted` | Quot.sound, propext |
| C45 | `C45_range` | std |
| C45 | `C45_range_error` | std |
| C45 | `C45_range_select` | std |
| C45 | `C45_meta` | std |
| C45 | `C45_record_range_select` | std |
| C46 | `C46_top` | std |
| C46 | `C46_bottom` | std |
| C46 | `C46_negative` | Quot.sound, propext |
| C47 | `C47_expandable` | std |
| C47 | `C47_expand` | Quot.sound, propext |
| C47 | `C47_conflict` | Quot.sound, propext |
| C47 | `C47_stack` | std |
| C48 | `C48_select` | std |
| C48 | `C48_in_bounds` | std |
| C48 | `C48_simulation` | std |
| C49 | `C49_lens_partial` | std |
| C49 | `C49_consecutive` | std |
| C49 | `C49_unsorted` | Quot.sound, propext |
| C49 | `C49_incoherent` | std |
| C49 | `C49_labels_partial` | std |
| C49 | `C49_no_grouping` | std |
| C49 | `C49_counterexample_missing` | propext |
| C50 | `C50_sets_partial` | std |
| C50 | `C50_raises` | std |
| C50 | `C50_ranges` | std |
| C50 | `C50_even` | std |
| C50 | `C50_rolling_partial` | std |
| C50 | `C50_expanding_partial` | std |
| C50 | `C50_counterexample_negative` | std |
| C50 | `C50_counterexample_fractional` | std |
| C50 | `C50_counterexample_window` | std |
| C51 | `C51_last_wins` | std |
| C51 | `C51_nothing_else` | Quot.sound, propext |
| C51 | `C51_atomic` | propext |
| C51 | `C51_not_nested` | Quot.sound, propext |
| C51 | `C51_keys` | Quot.sound, propext |
| C51 | `C51_arguments_unchanged` | Quot.sound, propext |
| C51 | `C51_update_in_place` | propext |
| C51 | `C51_same_keys_partial` | Quot.sound, propext |
| C51 | `C51_counterexample_empty` | propext |
| C51 | `C51_counterexample_child` | propext |
| C51 | `C51_not_associative` | propext |
| C52 | `C52_readonly_partial` | propext |
| C52 | `C52_readonly_shallow` | std |
| C52 | `C52_frozen_partial` | Quot.sound, propext |
| C52 | `C52_reset_partial` | Quot.sound, propext |
| C52 | `C52_checkpoint_partial` | Quot.sound, propext |
| C52 | `C52_counterexample_setdefault` | propext |
| C52 | `C52_counterexample_ior` | propext |
| C52 | `C52_counterexample_nested` | propext |
| C52 | `C52_counterexample_reset_keys` | propext |
| C52 | `C52_counterexample_shared` | propext |
| C52 | `C52_created` | std |
| C52 | `C52_reset_restores` | std |
| C52 | `C52_update_allowed` | Quot.sound, propext |
| C53 | `C53_product` | std |
| C53 | `C53_once` | Quot.sound, propext |
| C53 | `C53_empty` | Quot.sound, propext |
| C53 | `C53_broadcast` | Quot.sound, propext |
| C53 | `C53_broadcast_max` | std |
| C53 | `C53_flatten` | std |
| C53 | `C53_tree` | Quot.sound, propext |
| C53 | `C53_combinations` | std |
| C53 | `C53_no_combination` | propext |
| C53 | `C53_itertools_combinations` | std |
| C54 | `C54_cash` | std |
| C54 | `C54_cash_grouped` | std |
| C54 | `C54_init_grouped` | std |
| C54 | `C54_init_shared` | std |
| C54 | `C54_cash_sim_order` | std |
| C54 | `C54_value_window` | std |
| C54 | `C54_cash_last` | std |
| C54 | `C54_value_last` | std |
| C54 | `C54_value_grouped` | std |
| C54 | `C54_window_counterexample` | std |
| C54 | `C54_cash_within` | std |
| C55 | `C55_record` | std |
| C55 | `C55_open` | std |
| C56 | `C56_preview` | std |
| C56 | `C56_draw` | std |
| C56 | `C56_slot` | std |
| C56 | `C56_counterexample_draw` | std |
| C57 | `C57_success` | std |
| C57 | `C57_same` | std |
| C57 | `C57_forward` | std |
| C57 | `C57_backward` | std |
| C57 | `C57_counterexample_shared` | std |
| C58 | `C58_refines` | std |
| C58 | `C58_equivalent` | std |
| C58 | `C58_counterexample_memoryless` | std |
| C59 | `C59_breakout` | std |
| C59 | `C59_fixed` | std |
| C59 | `C59_fixed_nan` | std |
| C59 | `C59_future_min` | std |
| C59 | `C59_future_max` | std |
| C59 | `C59_future_mean_partial` | std |
| C59 | `C59_mean_labels_partial` | std |
| C59 | `C59_future_mean_past` | std |
| C59 | `C59_counterexample_ewm` | std |
| C59 | `C59_extrema` | std |
| C59 | `C59_extrema_returns` | std |
| C59 | `C59_counterexample_between` | std |
| C59 | `C59_trend` | std |
| C59 | `C59_trend_pct` | std |
| C60 | `C60_rsi` | std |
| C60 | `C60_stoch_nonneg` | std |
| C60 | `C60_stoch_partial` | std |
| C60 | `C60_counterexample_stoch` | std |
| C60 | `C60_stoch_d_nonneg` | std |
| C60 | `C60_stoch_d_partial` | std |
| C60 | `C60_bands` | std |
| C60 | `C60_bollinger` | std |
| C60 | `C60_true_range` | std |
| C60 | `C60_true_range_gap` | std |
| C60 | `double_sound` | std |
| C61 | `C61_first` | std |
| C61 | `C61_stop` | std |
| C61 | `C61_ohlc` | std |
| C61 | `C61_ohlc_error` | std |
| C61 | `C61_gap` | std |
| C62 | `C62_mapper` | Quot.sound, propext |
| C62 | `C62_agree` | std |
| C62 | `C62_aligned_partial` | std |
| C62 | `C62_equal` | Quot.sound, propext |
| C62 | `C62_single` | Quot.sound, propext |
| C62 | `C62_returns` | std |
| C62 | `C62_duplicates` | std |
| C62 | `C62_indexes` | Quot.sound, propext |
| C62 | `C62_counterexample` | Quot.sound, propext |
| C63 | `C63_one` | Quot.sound, propext |
| C63 | `C63_history` | Quot.sound, propext |
| C63 | `C63_order` | Quot.sound, propext |
| C63 | `C63_sorted` | Quot.sound, propext |
| C63 | `C63_array` | std |
| C63 | `C63_align` | std |
| C63 | `C63_update` | std |
| C63 | `C63_same_index` | std |
| C63 | `C63_counterexample_nan` | Quot.sound, propext |
| C63 | `C63_counterexample_drop` | Quot.sound, propext |
| C63 | `C63_counterexample_sorted` | Quot.sound, propext |
| C64 | `C64_rank` | std |
| C64 | `C64_narrower` | std |
| C64 | `C64_decision` | std |
| C64 | `C64_default` | std |
| C64 | `C64_scope` | std |
| C64 | `C64_property` | std |
| C64 | `C64_method` | Quot.sound, propext |
| C64 | `C64_method_pure` | Quot.sound, propext |
| C64 | `C64_method_size` | Quot.sound, propext |
| C64 | `C64_method_hit` | std |
| C64 | `C64_counterexample_method` | Quot.sound, propext |
| C64 | `C64_counterexample_rank` | Quot.sound, propext |
| C64 | `C64_counterexample_name` | propext |
| C65 | `C65_has_templates` | Quot.sound, propext |
| C65 | `C65_free` | Quot.sound, propext |
| C65 | `C65_replaced` | Quot.sound, propext |
| C65 | `C65_nothing_else` | std |
| C65 | `C65_safe` | Quot.sound, propext |
| C65 | `C65_no_mutation` | std |
| C65 | `C65_in_place` | propext |
| C65 | `C65_shape` | Quot.sound, propext |
| C65 | `C65_override_partial` | Quot.sound, propext |
| C65 | `C65_counterexample_nested` | propext |
| C66 | `C66_std` | std |
| C66 | `C66_expanding` | std |
| C67 | `C67_reduce` | std |
| C67 | `C67_reduce_idx` | std |
| C67 | `C67_apply` | std |
| C67 | `C67_counts` | std |
| C68 | `C68_lookup` | Quot.sound, propext |
| C68 | `C68_cached` | Quot.sound, propext |
| C68 | `C68_returns` | Quot.sound, propext |
| C68 | `C68_once` | Quot.sound, propext |
| C68 | `C68_macd` | Quot.sound, propext |
| C68 | `C68_collision` | propext |
| C69 | `C69_step` | std |
| C69 | `C69_total` | std |
| C69 | `C69_past` | std |
| C70 | `C70_requested` | std |
| C70 | `C70_sorted` | std |
| C70 | `C70_percent_buy` | std |
| C70 | `C70_percent_sell_long` | std |
| C70 | `C70_percent_sell_short` | std |
| C71 | `C71_accounts_partial` | std |
| C71 | `C71_free_cash_partial` | std |
| C71 | `C71_accounts_signals_partial` | std |
| C71 | `C71_free_cash_signals_partial` | std |
| C71 | `C71_round_trip` | std |
| C71 | `C71_counterexample` | std |
| C71 | `C71_collateral_partial` | std |
| C71 | `C71_collateral_signals_partial` | std |
| C72 | `C72_assets` | std |
| C72 | `C72_mask` | std |
| C72 | `C72_mask_grouped` | Quot.sound, propext |
| C72 | `C72_coverage` | std |
| C72 | `C72_flows_partial` | std |
| C72 | `C72_flows_signals_partial` | std |
| C72 | `C72_small_trades_lost` | std |
| C73 | `C73_gross` | std |
| C73 | `C73_gross_exact` | std |
| C73 | `C73_gross_group` | std |
| C73 | `C73_gross_group_bounds` | std |
| C73 | `C73_net` | std |
| C73 | `C73_portfolio_value_partial` | std |
| C73 | `C73_counterexample` | std |
| C73 | `C73_counterexample_group` | std |
| C74 | `C74_auto_partial` | std |
| C74 | `C74_used_up_partial` | std |
| C74 | `C74_align_partial` | std |
| C74 | `C74_auto_within` | std |
| C74 | `C74_used_up_within` | std |
| C74 | `C74_align_within` | std |
| C74 | `C74_tolerance_counterexample` | std |
| C75 | `C75_price` | std |
| C75 | `C75_stopped` | std |
| C75 | `C75_signalled` | std |
| C75 | `C75_hooks` | std |
| C75 | `C75_hooks_stopped` | std |
| C76 | `C76_simulate` | std |
| C76 | `C76_row_wise` | std |
| C76 | `C76_simulate_seq` | std |
| C76 | `C76_row_wise_seq` | std |
| C76 | `C76_flex` | std |
| C76 | `C76_flex_row_wise` | std |
| C77 | `C77_flex` | std |
| C77 | `C77_flex_row_wise` | std |
| C77 | `C77_counterexample_writes` | std |
| C78 | `C78_positions` | std |
| C78 | `C78_cash` | std |
| C78 | `C78_solvent_partial` | std |
| C78 | `C78_positions_row_wise` | std |
| C78 | `C78_cash_row_wise` | std |
| C78 | `C78_solvent_row_wise_partial` | std |
| C78 | `C78_positions_flex` | std |
| C78 | `C78_cash_flex` | std |
| C78 | `C78_solvent_flex_partial` | std |
| C78 | `C78_positions_flex_row_wise` | std |
| C78 | `C78_cash_flex_row_wise` | std |
| C78 | `C78_solvent_flex_row_wise_partial` | std |
| C78 | `C78_counterexample_writes` | std |
| C79 | `C79_segments` | std |
| C79 | `C79_segments_row_wise` | std |
| C79 | `C79_segments_flex` | std |
| C79 | `C79_segments_flex_row_wise` | std |
| C79 | `C79_numbered` | std |
| C79 | `C79_last` | std |
| C79 | `C79_numbered_row_wise` | std |
| C79 | `C79_last_row_wise` | std |
| C79 | `C79_numbered_flex` | std |
| C79 | `C79_last_flex` | std |
| C79 | `C79_numbered_flex_row_wise` | std |
| C79 | `C79_last_flex_row_wise` | std |
| C79 | `C79_by_rows` | std |
| C79 | `C79_by_rows_flex` | std |
| C79 | `C79_by_rows_row_wise` | std |
| C79 | `C79_by_rows_flex_row_wise` | std |
| C79 | `C79_counterexample_strict` | std |
| C80 | `C80_run` | std |
| C80 | `C80_run_product` | std |
| C80 | `C80_unique` | std |
| C80 | `C80_loops` | std |
| C80 | `C80_per_column` | std |
| C80 | `C80_use_raw` | std |
| C80 | `C80_use_raw_missing` | std |
| C80 | `C80_raises` | std |
| C80 | `C80_run_combs` | std |
| C80 | `C80_mixed_inplace` | Quot.sound, propext |
| C80 | `C80_all_hidden` | std |
| C80 | `C80_column_inplace_fails` | Quot.sound, propext |
| C80 | `C80_combs_columns_fails` | Quot.sound, propext |
| C81 | `C81_columns` | Quot.sound, propext |
| C81 | `C81_rows` | Quot.sound, propext |
| C81 | `C81_rolling` | std |
| C81 | `C81_expanding` | std |
| C81 | `C81_matrix_partial` | std |
| C81 | `C81_groupby` | Quot.sound, propext |
| C81 | `C81_groupby_matrix` | Quot.sound, propext |
| C81 | `C81_labels` | std |
| C81 | `C81_map` | Quot.sound, propext |
| C81 | `C81_filter` | Quot.sound, propext |
| C81 | `C81_reduce` | Quot.sound, propext |
| C81 | `C81_apply_reduce` | Quot.sound, propext |
| C81 | `C81_reduce_array` | std |
| C81 | `C81_group_columns` | Quot.sound, propext |
| C81 | `C81_reduce_grouped` | std |
| C81 | `C81_reduce_grouped_array` | std |
| C81 | `C81_squeeze` | std |
| C81 | `C81_flat_reduce` | std |
| C81 | `C81_flat_reduce_array` | std |
| C81 | `C81_flat_row` | std |
| C81 | `C81_flatten` | std |
| C81 | `C81_value_counts` | std |
| C81 | `C81_value_counts_total` | std |
| C81 | `C81_nth` | std |
| C81 | `C81_min_max` | std |
| C81 | `C81_arg_partial` | std |
| C81 | `C81_sum_mean` | std |
| C81 | `C81_idxmin` | std |
| C81 | `C81_counterexample_matrix` | Quot.sound, propext |
| C81 | `C81_counterexample_arg` | propext |
| C81 | `C81_counterexample_any` | Quot.sound, propext |
| C81 | `C81_any_partial` | Quot.sound, propext |
| C82 | `C82_rolling` | std |
| C82 | `C82_rolling_benchmark` | std |
| C82 | `C82_columns` | Quot.sound, propext |
| C82 | `C82_sharpe` | std |
| C82 | `C82_sharpe_sign` | std |
| C82 | `C82_sharpe_scale` | std |
| C82 | `C82_information` | std |
| C82 | `C82_counterexample_sharpe` | std |
| C82 | `C82_counterexample_information` | std |
| C82 | `C82_beta` | std |
| C82 | `C82_beta_affine` | std |
| C82 | `C82_beta_self` | std |
| C82 | `C82_alpha` | std |
| C82 | `C82_beta_not_inf` | std |
| C82 | `C82_omega` | std |
| C82 | `C82_omega_above_one` | std |
| C82 | `C82_counterexample_omega` | std |
| C82 | `C82_downside` | std |
| C82 | `C82_downside_zero` | std |
| C82 | `C82_sortino` | std |
| C82 | `C82_var` | std |
| C82 | `C82_var_mono` | std |
| C82 | `C82_var_affine` | std |
| C82 | `C82_cvar` | std |
| C82 | `C82_cvar_le_var` | std |
| C82 | `C82_counterexample_cvar` | std |
| C82 | `C82_capture_self` | std |
| C82 | `C82_up_down_capture` | std |
| C82 | `C82_annualized` | std |
| C82 | `C82_calmar` | std |
| C82 | `C82_counterexample_calmar` | std |
| C82 | `C82_tail` | std |
| C82 | `C82_volatility` | std |
| C82 | `C82_volatility_affine` | std |
| C82 | `C82_omega_threshold` | std |
| C82 | `C82_capture` | std |
| C83 | `C83_execute_partial` | std |
| C83 | `C83_process_partial` | std |
| C83 | `C83_double` | std |
| C83 | `C83_exact` | std |
| C83 | `C83_zero_percent_differs` | std |
| C83 | `C83_granularity_differs` | std |
| C83 | `C83_zero_division_differs` | std |
| C83 | `C83_zero_division_fills` | std |
| C83 | `C83_nan_minimum_differs` | std |
| C84 | `C84_simulate` | std |
| C84 | `C84_double` | std |
| C84 | `C84_exact_partial` | std |
| C84 | `C84_flex` | std |
| C84 | `C84_sort_differs` | std |
| C85 | `C85_simulate` | std |
| C85 | `C85_double` | std |
| C85 | `C85_no_zero_division` | std |
| C85 | `C85_exact_partial` | std |
| C85 | `C85_exception_differs` | std |
| C85 | `C85_division_differs` | std |
| C86 | `C86_columns` | std |
| C86 | `C86_group_columns` | std |
| C86 | `C86_groups_partial` | std |
| C86 | `C86_three_groups` | std |
| C86 | `C86_auto_align_differs` | std |
| C86 | `C86_shared_columns_differ` | std |
| C86 | `C86_shared_column_error` | std |
| C87 | `C87_modified` | std |
| C87 | `C87_check` | std |
| C87 | `C87_misfit` | Quot.sound, propext |
| C87 | `C87_resolve_group_by` | std |
| C87 | `C87_regroup` | std |
| C87 | `C87_regroup_accepts` | std |
| C87 | `C87_regroup_same` | propext |
| C87 | `C87_shared_regroup` | std |
| C87 | `C87_shared_methods` | std |
| C87 | `C87_shared_ungroup` | propext |
| C87 | `C87_resolve_partial` | std |
| C87 | `C87_resolve_off` | std |
| C87 | `C87_reduced_partial` | std |
| C87 | `C87_stale` | std |
| C87 | `C87_stale_joined` | std |
| C88 | `C88_shift` | std |
| C88 | `C88_diff` | std |
| C88 | `C88_fill` | std |
| C88 | `C88_rolling_extremes` | std |
| C88 | `C88_rolling_mean_partial` | std |
| C88 | `C88_rolling_mean_minp` | std |
| C88 | `C88_expanding_mean_partial` | std |
| C88 | `C88_expanding_mean_minp` | std |
| C88 | `C88_rolling_std` | std |
| C88 | `C88_ewm_mean_partial` | std |
| C88 | `C88_ewm_mean_span` | std |
| C88 | `C88_ewm_std_partial` | std |
| C88 | `C88_ewm_std_span` | std |
| C88 | `C88_expanding_extremes` | std |
| C88 | `C88_expanding_std_partial` | std |
| C88 | `C88_crossed_above` | std |
| C88 | `C88_mean_empty` | std |
| C88 | `C88_mean_rounding` | std |
| C88 | `C88_expanding_minp` | std |
| C88 | `C88_ewm_no_span` | std |
| C88 | `C88_expanding_std_rounding` | std |
| C89 | `C89_ranges` | Quot.sound, propext |
| C89 | `C89_durations` | std |
| C89 | `C89_coverage` | std |
| C89 | `C89_coverage_differs` | std |
| C89 | `C89_coverage_found` | std |
| C89 | `C89_mask` | std |
| C89 | `C89_mask_found` | std |
| C89 | `C89_outside` | std |
| C89 | `C89_drawdowns` | std |
| C89 | `C89_argmin` | std |
| C89 | `C89_argmax` | std |
| C89 | `C89_argmin_differs` | propext |
| C90 | `C90_entry` | std |
| C90 | `C90_exit` | std |
| C90 | `C90_positions` | std |
| C90 | `C90_chain` | std |
| C90 | `C90_streaks` | Quot.sound, propext |
| C90 | `C90_double` | std |
| C90 | `C90_exact_trades` | std |
| C90 | `C90_exact_positions` | std |
| C90 | `C90_differs` | std |
| C90 | `C90_positions_differs` | std |
| C91 | `C91_flows` | std |
| C91 | `C91_running` | std |
| C91 | `C91_value` | std |
| C91 | `C91_groups` | std |
| C91 | `C91_lengths_differ` | std |
| C91 | `C91_init_cash` | std |
| C91 | `C91_init_cash_differs` | Quot.sound, propext |
| C91 | `C91_sim_order` | std |
| C91 | `C91_profit` | std |
| C91 | `C91_returns` | std |
| C91 | `C91_benchmark` | std |
| C91 | `C91_benchmark_start` | std |
| C91 | `C91_benchmark_differs` | std |
| C91 | `C91_benchmark_grouped` | std |
| C92 | `C92_clean` | std |
| C92 | `C92_stop_exits` | std |
| C92 | `C92_stop_turns` | std |
| C92 | `C92_stop_turns_end` | std |
| C92 | `C92_ohlc_exits` | std |
| C92 | `C92_ohlc_turns` | std |
| C92 | `C92_ohlc_turns_end` | std |
| C92 | `C92_ranges` | Quot.sound, propext |
| C92 | `C92_ranks` | std |
| C92 | `C92_nth_index` | std |
| C92 | `C92_norm_avg_index` | std |
| C92 | `C92_norm_avg_bounds` | std |
| C93 | `Engine.C93_numba` | propext |
| C93 | `Engine.C93_rust` | Quot.sound, propext |
| C93 | `Engine.C93_auto` | Quot.sound, propext |
| C93 | `Engine.C93_invalid` | propext |
| C93 | `Engine.C93_looked_up_once` | std |
| C93 | `Engine.C93_random` | propext |
| C93 | `Engine.C93_seed` | propext |
| C93 | `Engine.C93_combine` | Quot.sound, propext |
| C93 | `Engine.C93_array` | std |
| C93 | `Engine.C93_exact` | std |
| C93 | `Engine.C93_rolling` | std |
| C93 | `Engine.C93_mask` | std |
| C93 | `Engine.C93_flex` | std |
| C93 | `Engine.C93_flex_prepared` | std |
| C93 | `Engine.C93_stop_ex` | std |
| C93 | `Engine.C93_negative_wait` | std |
| C93 | `Engine.C93_number_for_array` | std |
| C93 | `Engine.C93_number_changed` | std |
| C93 | `Engine.C93_infinity` | std |
| C93 | `Engine.C93_columns` | std |
| C94 | `RsRet.C94_returns` | std |
| C94 | `RsRet.C94_returns_raises` | std |
| C94 | `RsRet.C94_cum_returns` | std |
| C94 | `RsRet.C94_products` | std |
| C94 | `RsRet.C94_deviations` | std |
| C94 | `RsRet.C94_layouts` | std |
| C94 | `RsRet.C94_shapes` | std |
| C94 | `RsRet.C94_drawdowns` | std |
| C94 | `RsRet.C94_no_rows` | std |
| C94 | `RsRet.C94_omega` | std |
| C94 | `RsRet.C94_downside` | std |
| C94 | `RsRet.C94_beta_alpha` | std |
| C94 | `RsRet.C94_captures` | std |
| C94 | `RsRet.C94_quantiles` | std |
| C94 | `RsRet.C94_cond_value_at_risk` | std |
| C94 | `RsRet.C94_rolling` | std |
| C94 | `RsRet.C94_rolling_pair` | std |
| C94 | `RsRet.C94_rolling_sound` | std |
| C94 | `RsRet.C94_rolling_exact` | std |
| C94 | `RsRet.C94_rolling_benchmark` | std |
| C94 | `RsRet.C94_rolling_raising` | std |
| C94 | `RsRet.C94_zero_exponent` | std |
| C94 | `RsRet.C94_empty_window` | std |
| C94 | `RsRet.C94_no_columns` | std |
| C94 | `RsRet.C94_counterexample_rounding` | std |
| C94 | `RsRet.C94_one_dim` | std |
| C95 | `C95_map` | std |
| C95 | `C95_map_select` | std |
| C95 | `C95_range` | std |
| C95 | `C95_select` | std |
| C95 | `C95_records_map_partial` | std |
| C95 | `C95_records_range_partial` | std |
| C95 | `C95_strided_false` | propext |
| C95 | `C95_compatible` | Quot.sound, propext |
| C95 | `C95_sorted` | std |
| C95 | `C95_expandable` | std |
| C95 | `C95_expand` | std |
| C95 | `C95_expand_same` | Quot.sound, propext |
| C95 | `C95_stack` | std |
| C95 | `C95_stack_empty` | propext |
| C95 | `C95_counts` | std |
| C95 | `C95_masks` | std |
| C95 | `C95_top` | std |
| C95 | `C95_bottom` | std |
| C95 | `C95_selects` | std |
| C95 | `C95_negative` | Quot.sound, propext |
| C95 | `C95_map_panics` | std |
| C95 | `C95_one_column` | none |
| C96 | `C96_future_mean_exact` | std |
| C96 | `C96_mean_labels_exact` | std |
| C96 | `C96_future_ewm_mean` | std |
| C96 | `C96_mean_layout` | std |
| C96 | `C96_future_std_partial` | std |
| C96 | `C96_future_std_col` | std |
| C96 | `C96_future_ewm_std` | std |
| C96 | `C96_future_extremes` | std |
| C96 | `C96_fixed_labels` | std |
| C96 | `C96_std_layouts_differ` | std |
| C96 | `C96_mean_engines_differ` | std |
| C96 | `C96_empty_period` | Quot.sound, propext |
| C96 | `C96_local_extrema` | std |
| C96 | `C96_bn_trend` | std |
| C96 | `C96_bn_cont_sat` | std |
| C96 | `C96_pct_trend` | std |
| C96 | `C96_trend_labels` | std |
| C96 | `C96_breakout` | std |
| C96 | `C96_pct_zero` | std |
| C96 | `C96_sat_zero` | std |
| C97 | `C97_ma` | std |
| C97 | `C97_mstd` | std |
| C97 | `C97_bbands` | std |
| C97 | `C97_rsi` | std |
| C97 | `C97_stoch` | std |
| C97 | `C97_macd` | std |
| C97 | `C97_atr` | std |
| C97 | `C97_true_range` | std |
| C97 | `C97_true_range_1d` | std |
| C97 | `C97_obv` | std |
| C97 | `C97_lengths` | std |
| C97 | `C97_shapes` | std |
| C97 | `C97_ma_double` | std |
| C97 | `C97_macd_lengths` | std |
| C98 | `C98_mask` | std |
| C98 | `C98_mask_mult` | std |
| C98 | `C98_fillna` | std |
| C98 | `C98_mask_1d` | std |
| C98 | `C98_cumulative` | std |
| C98 | `C98_sums` | std |
| C98 | `C98_extremes` | Quot.sound, propext |
| C98 | `C98_extremes_empty` | Quot.sound, propext |
| C98 | `C98_median` | std |
| C98 | `C98_std_partial` | std |
| C98 | `C98_std_layout_differs` | std |
| C98 | `C98_describe_partial` | std |
| C98 | `C98_describe_differs` | std |
| C98 | `C98_elements` | std |
| C98 | `C98_flatten` | std |
| C98 | `C98_flatten_grouped` | std |
| C98 | `C98_flatten_uniform` | std |
| C98 | `C98_value_counts` | Quot.sound, propext |
| C98 | `C98_negative_code_differs` | propext |
| C98 | `C98_refused` | Quot.sound, propext |
| C98 | `C98_drawdowns` | std |
| C99 | `C99_rand` | std |
| C99 | `C99_prob` | std |
| C99 | `C99_prob_extremes` | std |
| C99 | `C99_rand_ex` | std |
| C99 | `C99_ex_prob` | std |
| C99 | `C99_ex_certain` | std |
| C99 | `C99_enex` | std |
| C99 | `C99_enex_count` | std |
| C99 | `C99_enex_error` | std |
| C99 | `C99_enex_none` | std |
| C99 | `C99_enex_default` | std |
| C99 | `C99_enex_crowded` | std |
| C99 | `C99_enex_prob` | std |
| C99 | `C99_enex_prob_rows` | std |
| C99 | `C99_enex_prob_turns` | std |
| C99 | `C99_enex_prob_first` | std |
| C100 | `C100_rand` | std |
| C100 | `C100_rand_count` | std |
| C100 | `C100_prob` | std |
| C100 | `C100_rand_ex` | std |
| C100 | `C100_ex_prob` | std |
| C100 | `C100_enex` | std |
| C100 | `C100_pairs` | std |
| C100 | `C100_none_differs` | std |
| C100 | `C100_enex_prob` | std |
| C100 | `C100_enex_prob_blocks` | std |
| C101 | `C101_repeat` | std |
| C101 | `C101_tile` | Quot.sound, propext |
| C101 | `C101_default` | Quot.sound, propext |
| C101 | `C101_stack` | std |
| C101 | `C101_stack_raises` | std |
| C101 | `C101_stack_tells_apart` | std |
| C101 | `C101_stack_forgets` | std |
| C101 | `C101_keep_case` | std |
| C101 | `C101_combine_total` | std |
| C101 | `C101_combine_rows` | std |
| C101 | `C101_combine_named` | std |
| C101 | `C101_tile_keys` | std |
| C101 | `C101_repeat_keys` | std |
| C101 | `C101_no_keys` | std |
| C101 | `C101_wrong_keys` | std |
| C101 | `C101_tile_keys_forgets` | std |
| C101 | `C101_rename` | Quot.sound, propext |
| C101 | `C101_rename_missing` | propext |
| C101 | `C101_rename_multi_kept` | propext |
| C101 | `C101_rename_writes` | propext |
| C101 | `C101_rename_writes_and_raises` | propext |
| C101 | `C101_pick` | std |
| C101 | `C101_pick_more` | Quot.sound, propext |
| C102 | `C102_array` | std |
| C102 | `C102_array_all` | std |
| C102 | `C102_array_raises` | propext |
| C102 | `C102_array_loses` | Quot.sound, propext |
| C102 | `C102_df_labels` | std |
| C102 | `C102_df_partial` | std |
| C102 | `C102_df_iff` | std |
| C102 | `C102_df_wrong` | Quot.sound, propext |
| C102 | `C102_frame_column` | std |
| C102 | `C102_frame_row` | propext |
| C102 | `C102_symmetric_cells` | std |
| C102 | `C102_symmetric_iff` | std |
| C102 | `C102_not_symmetric` | std |
| C103 | `C103_shape_exists` | Quot.sound, propext |
| C103 | `C103_shape_least` | Quot.sound, propext |
| C103 | `C103_shape_order` | Quot.sound, propext |
| C103 | `C103_values` | std |
| C103 | `C103_cells` | std |
| C103 | `C103_elements` | std |
| C103 | `C103_index_stack` | std |
| C103 | `C103_stack` | std |
| C103 | `C103_strict_partial` | std |
| C103 | `C103_strict_raises` | std |
| C103 | `C103_keep` | std |
| C103 | `C103_to_frame` | std |
| C103 | `C103_to_series` | std |
| C103 | `C103_array_of` | propext |
| C103 | `C103_array_of_full` | propext |
| C103 | `C103_axis_of` | Quot.sound, propext |
| C103 | `C103_strict_default` | std |
| C103 | `C103_columns_by_position` | std |
| C103 | `C103_series_as_row` | std |
| C103 | `C103_empty_raises` | std |
| C103 | `C103_names_dropped` | std |
| C103 | `C103_given` | std |
| C103 | `C103_from_argument` | std |
| C103 | `C103_reset` | std |
| C103 | `C103_kinds` | std |
| C103 | `C103_to_array` | std |
| C103 | `C103_stack_raises` | std |
| C103 | `C103_axis_missing` | Quot.sound, propext |
| C103 | `C103_labels_shared` | std |
| C104 | `C104_win_rate` | std |
| C104 | `C104_win_rate_share` | std |
| C104 | `C104_profit_factor` | std |
| C104 | `C104_profit_factor_total` | std |
| C104 | `C104_expectancy` | std |
| C104 | `C104_expectancy_iff` | std |
| C104 | `C104_expectancy_partial` | std |
| C104 | `C104_expectancy_even` | std |
| C104 | `C104_sqn` | std |
| C104 | `C104_stats` | std |
| C104 | `C104_open_pnl` | std |
| C104 | `C104_streak` | std |
| C104 | `C104_best_worst` | std |
| C104 | `C104_win_rate_ignores_open` | std |
| C105 | `C105_enums` | std |
| C105 | `C105_name` | std |
| C105 | `C105_unknown` | std |
| C105 | `C105_int` | std |
| C105 | `C105_others` | std |
| C105 | `C105_accumulate` | std |
| C105 | `C105_array` | std |
| C105 | `C105_array_error` | std |
| C105 | `C105_first_decides` | std |
| C105 | `C105_list` | std |
| C105 | `C105_frame` | std |
| C105 | `C105_again` | std |
| C105 | `C105_value` | std |
| C105 | `C105_round_trip` | std |
| C105 | `C105_mixed` | std |
| C105 | `C105_missing` | std |
| C105 | `C105_collision` | std |
| C105 | `C105_alias` | std |
| C106 | `C106_max` | std |
| C106 | `C106_returns_partial` | std |
| C106 | `C106_portfolio` | std |
| C106 | `C106_active` | std |
| C106 | `C106_durations` | std |
| C106 | `C106_no_drawdown_counterexample` | std |
| C107 | `C107_orders` | std |
| C107 | `C107_value` | std |
| C107 | `C107_benchmark` | std |
| C107 | `C107_defaults` | std |
| C107 | `C107_infinite` | std |
| C107 | `C107_group_counterexample` | std |
| C107 | `C107_init_cash_counterexample` | std |
| C107 | `C107_use_stops` | std |
| C107 | `C107_stops_resolved` | propext |
| C107 | `C107_conflict` | std |
| C107 | `C107_one_simulation` | std |
| C107 | `C107_direction` | std |
| C107 | `C107_init_cash` | Quot.sound, propext |
| C107 | `C107_grouping` | propext |
| C108 | `C108_total` | std |
| C108 | `C108_rate` | std |
| C108 | `C108_overlap` | std |
| C108 | `C108_nth` | std |
| C108 | `C108_nth_gaps` | std |
| C108 | `C108_nth_negative_counterexample` | std |
| C108 | `C108_partitions` | std |
| C108 | `C108_partition_rate` | std |
| C108 | `C108_norm_avg` | std |
| C108 | `C108_norm_avg_mirror` | std |
| C108 | `C108_norm_avg_group` | std |
| C108 | `C108_single_row_counterexample` | std |
| C108 | `C108_group_index` | std |
| C108 | `C108_group_index_counterexample` | none |
| C109 | `C109_sort` | std |
| C109 | `C109_sort_ids` | std |
| C109 | `C109_sort_twice` | std |
| C109 | `C109_sort_reduce` | std |
| C109 | `C109_sort_group_counterexample` | Quot.sound, propext |
| C109 | `C109_mask` | Quot.sound, propext |
| C109 | `C109_pick` | std |
| C109 | `C109_pick_group_counterexample` | Quot.sound, propext |
| C109 | `C109_combine` | Quot.sound, propext |
| C109 | `C109_combine_laws` | std |
| C109 | `C109_counts` | std |
| C109 | `C109_counts_order` | std |
| C109 | `C109_counts_total` | std |
| C110 | `C110_apply` | std |
| C110 | `C110_combine_concat` | std |
| C110 | `C110_combine_fold` | std |
| C110 | `C110_logic` | std |
| C110 | `C110_numba_loop` | Quot.sound, propext |
| C110 | `C110_single_other` | std |
| C110 | `C110_single_counterexample` | std |
| C110 | `C110_default_columns_counterexample` | std |
| C110 | `C110_no_others` | std |
| C110 | `C110_shape` | std |
| C111 | `C111_accepts` | std |
| C111 | `C111_reads` | std |
| C111 | `C111_groups` | std |
| C111 | `C111_one_row_rejected` | propext |
| C111 | `C111_empty_rows` | std |
| C112 | `C112_names` | std |
| C112 | `C112_distinct_names` | std |
| C112 | `C112_lost_counterexample` | propext |
| C112 | `C112_missing_filter` | Quot.sound, propext |
| C112 | `C112_value` | propext |
| C112 | `C112_report` | std |
| C112 | `C112_same_title` | Quot.sound, propext |
| C112 | `C112_unknown` | Quot.sound, propext |
| C112 | `C112_unmatched_key` | Quot.sound, propext |
| C112 | `C112_titles` | Quot.sound, propext |
| C113 | `C113_transparent_partial` | Quot.sound, propext |
| C113 | `C113_lookup` | Quot.sound, propext |
| C113 | `C113_no_caching` | Quot.sound, propext |
| C113 | `C113_arguments` | propext |
| C113 | `C113_explicit_ignored` | Quot.sound, propext |
| C113 | `C113_hook_ignored` | propext |
| C113 | `C113_trades_type_ignored` | Quot.sound, propext |
| C113 | `C113_asset_returns_counterexample` | propext |
| C114 | `C114_accepts` | Quot.sound, propext |
| C114 | `C114_contents` | Quot.sound, propext |
| C114 | `C114_round_trip` | Quot.sound, propext |
| C114 | `C114_zero_name` | propext |
| C114 | `C114_caller_changed` | Quot.sound, propext |
| C114 | `C114_fill` | Quot.sound, propext |
| C114 | `C114_fill_reduced` | Quot.sound, propext |
| C114 | `C114_reduced_columns` | Quot.sound, propext |
| C114 | `C114_reduced_arrays` | std |
| C114 | `C114_reduced_scalar` | propext |
| C114 | `C114_to_index` | Quot.sound, propext |
| C114 | `C114_to_index_all` | propext |
| C114 | `C114_reduced_to_index` | Quot.sound, propext |
| C114 | `C114_series_to_index` | Quot.sound, propext |
| C114 | `C114_wrap_to_index` | propext |
| C114 | `C114_nan_raises` | Quot.sound, propext |
| C115 | `C115_seconds` | std |
| C115 | `C115_units` | std |
| C115 | `C115_negative_units` | std |
| C115 | `C115_float` | std |
| C115 | `C115_aware` | std |
| C115 | `C115_aware_kept` | std |
| C115 | `C115_naive` | std |
| C115 | `C115_convert` | std |
| C115 | `C115_datetime64` | std |
| C115 | `C115_raises` | std |
| C115 | `C115_ms` | std |
| C115 | `C115_round_trip` | std |
| C115 | `C115_interval` | std |
| C115 | `C115_early_ms_counterexample` | std |
| C115 | `C115_negative_counterexample` | std |
| C115 | `C115_dst_counterexample` | std |
| C116 | `C116_select_one` | std |
| C116 | `C116_default` | std |
| C116 | `C116_no_column` | Quot.sound, propext |
| C116 | `C116_from_obj` | std |
| C116 | `C116_agree` | std |
| C116 | `C116_one_row` | std |
| C116 | `C116_setting` | std |
| C116 | `C116_single_group` | std |
| C116 | `C116_repeated` | std |
| C117 | `C117_parse` | std |
| C117 | `C117_unexpected` | std |
| C117 | `C117_plain` | std |
| C117 | `C117_time` | std |
| C117 | `C117_time_alone` | std |
| C118 | `C118_covers` | Quot.sound, propext |
| C118 | `C118_both` | Quot.sound, propext |
| C118 | `C118_refl` | Quot.sound, propext |
| C118 | `C118_longer` | Quot.sound, propext |
| C118 | `C118_config` | Quot.sound, propext |
| C118 | `C118_nested_exact` | std |
| C118 | `C118_configured` | Quot.sound, propext |
| C119 | `C119_sizes` | std |
| C119 | `C119_opacities` | std |
| C119 | `C119_range` | std |
| C119 | `C119_zero_range` | std |
| C119 | `C119_series` | std |
| C120 | `C120_convert` | std |
| C120 | `C120_round_trip` | std |
| C120 | `C120_through` | std |
| C120 | `C120_no_zone` | std |
| C120 | `C120_order` | std |
| C121 | `C121_names` | Quot.sound, propext |
| C121 | `C121_follow` | propext |
| C121 | `C121_string` | propext |
| C121 | `C121_last` | propext |
| C121 | `C121_tuple_path` | propext |
| C121 | `C121_pair` | propext |
| C121 | `C121_empty` | propext |
| C121 | `C121_all` | std |
| C122 | `C122_complete` | std |
| C122 | `C122_binance` | std |
| C122 | `C122_limit_one` | std |
| C122 | `C122_ends` | std |
| C122 | `C122_increasing` | Quot.sound, propext |
| C122 | `C122_gap` | Quot.sound, propext |
| C122 | `C122_retry` | Quot.sound, propext |
| C122 | `C122_error` | std |
| C123 | `C123_price` | std |
| C123 | `C123_positive` | std |
| C123 | `C123_update` | std |
| C123 | `C123_period` | std |
| C123 | `C123_one_row` | std |
| C124 | `C124_level` | std |
| C124 | `C124_inverse` | std |
| C124 | `C124_mirror` | std |
| C125 | `C125_number` | Quot.sound, propext |
| C125 | `C125_prob` | Quot.sound, propext |
| C125 | `C125_refused` | std |
