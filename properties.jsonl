{"id": "C01", "title": "Cash never goes negative", "statement": "Processing an order never leaves the account with negative cash: if cash is >= 0 before, it is >= 0 after every accepted, ignored or rejected order, and therefore after every sequence of orders, whatever sizes, prices, fees, slippage, granularity, direction, percent sizing and cash locking are used.", "quantifier": "every starting balance, every order the engine accepts, every finite history of orders", "why_tests_cant": "The input space is a product of a dozen real-valued fields with many branches (tolerance, granularity, partial fills); a test can only sample it, and the claim is about every reachable balance.", "anchors": ["vectorbt/portfolio/nb.py: buy_nb, sell_nb, execute_order_nb, process_order_nb"]}
{"id": "C02", "title": "A fill moves exactly what the order record says", "statement": "A filled buy of size s at price p with fees f lowers cash by s*p+f and raises the position by s; a filled sell raises cash by s*p-f and lowers the position by s. (Balances that come within the documented tolerance of zero are snapped to zero.)", "quantifier": "every balance and every order that is filled", "why_tests_cant": "Conservation has to hold on every path of the sizing logic, including partial fills and the tolerance snaps, for all real inputs.", "anchors": ["vectorbt/portfolio/nb.py: buy_nb, sell_nb, execute_order_nb", "vectorbt/utils/math_.py: add_nb"]}
{"id": "C03", "title": "An order that is not filled changes nothing", "statement": "If an order is ignored or rejected, then cash, position, debt and free cash are unchanged (values within the absolute tolerance of zero are reported as zero), no order record is written, valuation price and value are unchanged, and the result carries NaN size/price/fees and side -1.", "quantifier": "every balance and every order that is ignored or rejected", "why_tests_cant": "There are fourteen rejection/ignore reasons spread over three functions; the claim covers each of them for all inputs.", "anchors": ["vectorbt/portfolio/nb.py: execute_order_nb, process_order_nb, order_not_filled_nb"]}
{"id": "C04", "title": "Direction restrictions are respected", "statement": "With direction LongOnly an order never makes the position negative, with ShortOnly it never makes it positive; an order whose direction contradicts the sign of the current position raises instead of trading.", "quantifier": "every balance, every order with direction LongOnly or ShortOnly, every history of such orders", "why_tests_cant": "It is a safety property over all sizes and size types; sampling misses corner cases such as percentages above 100%.", "anchors": ["vectorbt/portfolio/nb.py: buy_nb, sell_nb, execute_order_nb", "vectorbt/portfolio/enums.py: Direction"]}
{"id": "C05", "title": "Fill price and fees follow the cost model", "statement": "A filled buy executes at price*(1+slippage), a filled sell at price*(1-slippage), and the fees recorded equal size*fill_price*fees + fixed_fees.", "quantifier": "every filled order", "why_tests_cant": "The fee is computed by different formulas on the full, limited and granular paths; agreement is needed for all inputs.", "anchors": ["vectorbt/portfolio/nb.py: buy_nb, sell_nb"]}
{"id": "C06", "title": "Filled size respects every size constraint", "statement": "The size of a filled order is positive, at most the requested size (when finite) and at most max_size, at least min_size up to tolerance, a whole multiple of size_granularity when set, and not below the requested size (up to tolerance) when partial fills are disallowed.", "quantifier": "every filled order", "why_tests_cant": "The constraints interact (granularity after cash limiting, percent after limits); all combinations over the reals are needed.", "anchors": ["vectorbt/portfolio/nb.py: buy_nb, sell_nb"]}
{"id": "C07", "title": "Debt and free cash bookkeeping is exact", "statement": "Starting from a flat account, after any sequence of orders free_cash + 2*debt = cash for a column that does not share cash, debt is never negative, and debt is zero whenever the column is not short.", "quantifier": "every history of orders on one column (and on a group of columns sharing cash, with debts summed)", "why_tests_cant": "It is an inductive invariant of the history; each order path touches debt and free cash with different formulas.", "anchors": ["vectorbt/portfolio/nb.py: buy_nb, sell_nb, execute_order_nb"]}
{"id": "C08", "title": "Locking cash protects free cash", "statement": "If every order is placed with lock_cash, free cash that starts non-negative never becomes negative.", "quantifier": "every history of orders with lock_cash", "why_tests_cant": "The bound comes from solving a linear equation for the coverable size; equality cases and fees decide whether it is right for all inputs.", "anchors": ["vectorbt/portfolio/nb.py: buy_nb, sell_nb"]}
{"id": "C09", "title": "Target sizes reach their target", "statement": "An order with size type TargetAmount, TargetValue or TargetPercent that is fully filled leaves the position equal to the target amount, target value / valuation price, or target percent * value / valuation price (negated for ShortOnly); Value and Percent are reduced to the equivalent amount or share of resources.", "quantifier": "every balance and every order, over all size types and directions", "why_tests_cant": "The conversion chain between six size types and three directions is a case product over reals.", "anchors": ["vectorbt/portfolio/nb.py: execute_order_nb", "vectorbt/portfolio/enums.py: SizeType"]}
{"id": "C10", "title": "Group value is kept consistent with holdings", "statement": "When value tracking is on and the value equals cash plus the sum of position*valuation price before an order, it equals the same sum with the fill price as the column's new valuation price after the order.", "quantifier": "every order in every group state, every history", "why_tests_cant": "It is an invariant of an incremental update, needed for every history and for groups of any number of columns.", "anchors": ["vectorbt/portfolio/nb.py: update_value_nb, process_order_nb, get_group_value_nb"]}
{"id": "C11", "title": "Order validation is complete and precedes trading", "statement": "A NaN size or NaN price is always ignored without error; otherwise the order raises exactly when one of the documented checks fails (non-finite or non-positive price, bad size type or direction, direction contradicting position, non-finite fees, negative slippage/min_size, non-positive max_size or granularity, reject_prob outside [0,1], or an invalid balance), and when none fails no validation error is raised.", "quantifier": "every balance and every order", "why_tests_cant": "The accepted domain is an intersection of a dozen predicates on floats including NaN and infinities.", "anchors": ["vectorbt/portfolio/nb.py: execute_order_nb"]}
{"id": "C12", "title": "Random rejection only when asked for", "statement": "With reject_prob = 0 the outcome of an order does not depend on the random source; with reject_prob = 1 no order is ever filled; otherwise an order is either processed exactly as with reject_prob = 0 or rejected with the random-event reason leaving balances unchanged.", "quantifier": "every order, every random stream", "why_tests_cant": "A test run sees one random stream; the claim ranges over all of them.", "anchors": ["vectorbt/portfolio/nb.py: execute_order_nb"]}
{"id": "C13", "title": "Order and log records are well formed", "statement": "After any simulation, order record ids are 0,1,2,... in the order written, record i stores the row and column at which it was filled, every row/column is inside the simulated shape, records of one column are in strictly increasing row order (at most one order per cell), and log records that carry an order id point to the order with the same row, column, size, price, fees and side.", "quantifier": "every shape, grouping, call sequence, input arrays and histories", "why_tests_cant": "It is an invariant over the triple loop group/row/column for every shape and call sequence.", "anchors": ["vectorbt/portfolio/nb.py: process_order_nb, fill_order_record_nb, fill_log_record_nb, simulate_from_orders_nb"]}
{"id": "C14", "title": "Record buffers overflow only when really full", "statement": "A simulation raises the max_orders/max_logs IndexError exactly when the number of orders/logs produced exceeds the buffer; with the default buffers (rows*columns) it never raises it.", "quantifier": "every shape, every buffer size, every input", "why_tests_cant": "Needs a counting argument over all loop iterations for every shape.", "anchors": ["vectorbt/portfolio/nb.py: init_records_nb, process_order_nb, simulate_from_orders_nb"]}
{"id": "C15", "title": "No look-ahead in order simulation", "statement": "The orders and logs produced for rows before n depend only on input rows before n: changing any input at rows >= n leaves the records with row < n unchanged (per group and, for the single-group case, as a prefix of the output).", "quantifier": "every pair of inputs agreeing before row n, every n, every shape and grouping", "why_tests_cant": "It is a relation between pairs of infinite families of runs; tests compare finitely many pairs.", "anchors": ["vectorbt/portfolio/nb.py: simulate_from_orders_nb"]}
{"id": "C16", "title": "Groups do not influence each other", "statement": "The orders of a group depend only on that group's columns of the inputs and on its initial cash: changing inputs of other groups does not change them (other than the record ids).", "quantifier": "every pair of inputs agreeing on a group, every grouping", "why_tests_cant": "A two-run property over all inputs and groupings.", "anchors": ["vectorbt/portfolio/nb.py: simulate_from_orders_nb, simulate_nb"]}
{"id": "C17", "title": "Every simulated column keeps its balances valid", "statement": "Throughout a simulation from order arrays, for every group: cash >= 0, each column's debt >= 0, free cash + 2*(sum of debts) = cash (up to tolerance snaps), and positions stay finite.", "quantifier": "every run, at every row, for every shape, grouping, cash sharing mode and call sequence", "why_tests_cant": "An invariant over all reachable states of a nested loop.", "anchors": ["vectorbt/portfolio/nb.py: simulate_from_orders_nb"]}
{"id": "C18", "title": "Portfolio reconstruction agrees with the simulation", "statement": "Recomputing asset positions and cash balances from the order records (assets, cash) yields, at every row and column, exactly the position and cash held during the simulation after that row.", "quantifier": "every simulation without shared-state errors, every row and column", "why_tests_cant": "It relates two independent programs (simulator and reconstructor) on all inputs.", "anchors": ["vectorbt/portfolio/nb.py: asset_flow_nb, assets_nb, cash_flow_nb, cash_nb, simulate_from_orders_nb"]}
{"id": "C19", "title": "Total profit equals final value minus initial cash", "statement": "For every column, the total profit computed from orders equals final cash plus final position times last close minus the initial cash; grouped totals are the sums over the group's columns.", "quantifier": "every order history, close prices and init cash", "why_tests_cant": "Two different accumulations over arbitrary histories must agree for all reals.", "anchors": ["vectorbt/portfolio/nb.py: total_profit_nb, total_profit_grouped_nb, final_value_nb, value_nb, cash_nb, assets_nb"]}
{"id": "C20", "title": "Trade, position and portfolio profit agree", "statement": "For every column the sum of PnL of entry trades, the sum of PnL of exit trades, the sum of PnL of positions and the portfolio's total profit are all equal.", "quantifier": "every valid order history of a column and every close series", "why_tests_cant": "Requires an invariant linking weighted averages of fees and prices over arbitrary histories.", "anchors": ["vectorbt/portfolio/nb.py: get_entry_trades_nb, get_exit_trades_nb, get_positions_nb, total_profit_nb"]}
{"id": "C21", "title": "Trades cover every order exactly once", "statement": "Entry trades are one per entry order with the entered size; exit trades are one per exit order plus at most one open trade per column, the last; within each position the entered sizes equal the exited sizes (counting the open remainder), entry index <= exit index, only the last position of a column can be open, and entry trades have the status of their position.", "quantifier": "every valid order history", "why_tests_cant": "Structural claim over arbitrary interleavings of buys and sells including reversals.", "anchors": ["vectorbt/portfolio/nb.py: get_entry_trades_nb, get_exit_trades_nb"]}
{"id": "C22", "title": "Positions do not depend on the trade view", "statement": "Aggregating entry trades into positions and aggregating exit trades into positions produce the same position records.", "quantifier": "every valid order history", "why_tests_cant": "The documentation promises 'all will produce the same results'; the two pipelines are different programs.", "anchors": ["vectorbt/portfolio/nb.py: get_positions_nb, get_entry_trades_nb, get_exit_trades_nb"]}
{"id": "C23", "title": "Streaks count consecutive wins and losses", "statement": "The winning (losing) streak at record i is the length of the longest run of records ending at i all of which have positive (negative) PnL, and 0 if record i does not.", "quantifier": "every sequence of trade PnLs", "why_tests_cant": "Universally quantified over sequences of any length including NaN entries.", "anchors": ["vectorbt/portfolio/nb.py: trade_winning_streak_nb, trade_losing_streak_nb"]}
{"id": "C24", "title": "Call sequences are permutations within groups", "statement": "For every group layout and call-sequence type, each row of the built call sequence restricted to a group is a permutation of 0..group_len-1: ascending for default, descending for reversed; the Python and compiled builders agree for the deterministic types.", "quantifier": "every shape, grouping and random shuffle", "why_tests_cant": "Index arithmetic over arbitrary group layouts.", "anchors": ["vectorbt/portfolio/nb.py: build_call_seq_nb, build_call_seq, shuffle_call_seq_nb"]}
{"id": "C25", "title": "Automatic call sequence sorts by order value", "statement": "Sorting a call sequence by approximate order value yields a permutation of the segment in which values are non-decreasing (so sells are called before buys), stable with respect to equal values, with NaN values last.", "quantifier": "every list of order values and every starting permutation", "why_tests_cant": "Correctness of an in-place sort on two coupled arrays with NaNs, for all lengths.", "anchors": ["vectorbt/utils/array_.py: insert_argsort_nb", "vectorbt/portfolio/nb.py: sort_call_seq_out_nb, sort_call_seq_nb"]}
{"id": "C26", "title": "Signal conflicts resolve to at most one action", "statement": "After conflict resolution no column has both an entry and an exit, nor both a long and a short entry; each conflict mode picks exactly the documented survivor, and inputs without a conflict are passed through unchanged.", "quantifier": "every signal combination, position and mode", "why_tests_cant": "Finite but large table crossed with real-valued position; the statement is about the whole table.", "anchors": ["vectorbt/portfolio/nb.py: resolve_signal_conflict_nb, resolve_dir_conflict_nb, resolve_opposite_entry_nb"]}
{"id": "C27", "title": "Signals translate to the documented order", "statement": "Converting resolved signals to an order gives: nothing without a signal; closing (target 0), reducing, reversing or opening according to position sign, accumulation mode and signal; the order's direction side is buy for long entry/short exit and sell otherwise.", "quantifier": "every signal, size, size type, position, accumulation mode and stop-exit override", "why_tests_cant": "Product of modes and reals; the sign analysis must hold for every position and size.", "anchors": ["vectorbt/portfolio/nb.py: signals_to_size_nb"]}
{"id": "C28", "title": "Array signals and signal functions agree", "statement": "Simulating from entry/exit arrays produces exactly the same orders and logs as simulating from a signal function that reads the same arrays, with the adjustment hooks doing nothing.", "quantifier": "every input, shape, grouping and option setting", "why_tests_cant": "Equivalence of two 500-line simulators over all inputs.", "anchors": ["vectorbt/portfolio/nb.py: simulate_from_signals_nb, simulate_from_signal_func_nb, dir_enex_signal_func_nb, ls_enex_signal_func_nb"]}
{"id": "C29", "title": "Stop orders fill only at reachable prices", "statement": "A stop-loss/take-profit is reported hit only if the bar's range reaches the stop level, and the price returned is the open (when the bar gaps through the level) or the stop level itself, hence within [low, high].", "quantifier": "every bar with low <= open <= high, every stop level and direction", "why_tests_cant": "All real OHLC combinations.", "anchors": ["vectorbt/portfolio/nb.py: get_stop_price_nb, resolve_stop_price_and_slippage_nb, generate_stop_signal_nb"]}
{"id": "C30", "title": "Trailing stops only tighten", "statement": "While a position is open and its stop is not overridden, the running reference price of a trailing stop for a long position never decreases and for a short position never increases, so the stop level never loosens.", "quantifier": "every price path and every run of the simulator between stop updates", "why_tests_cant": "Monotonicity along all price paths.", "anchors": ["vectorbt/portfolio/nb.py: simulate_from_signals_nb"]}
{"id": "C31", "title": "Cleaned signals alternate", "statement": "Cleaning entry/exit arrays returns arrays that are subsets of the inputs, never both true at a row, and strictly alternate starting with the configured side; cleaning twice is the same as cleaning once.", "quantifier": "every pair of boolean arrays of any length", "why_tests_cant": "Idempotence and alternation over all boolean sequences.", "anchors": ["vectorbt/signals/nb.py: clean_enex_1d_nb"]}
{"id": "C32", "title": "Generated exits respect their entry window", "statement": "Exits generated after entries lie at least wait rows after an entry, and, when configured to stop at the next entry, before that next entry; with reset/skip options no exit is produced for an entry inside a not-yet-exited range.", "quantifier": "every entry array, every choice function that returns indices in its range, every option", "why_tests_cant": "Quantifies over arbitrary user callbacks and arrays.", "anchors": ["vectorbt/signals/nb.py: generate_ex_nb"]}
{"id": "C33", "title": "Generated entry/exit pairs alternate", "statement": "Alternating generation produces entries and exits that never coincide unless waits allow it, strictly alternate starting with an entry, and always terminates (or raises the infinite-loop error) for every choice function.", "quantifier": "every choice function, wait and pick-first setting", "why_tests_cant": "Termination and alternation for arbitrary callbacks.", "anchors": ["vectorbt/signals/nb.py: generate_enex_nb"]}
{"id": "C34", "title": "Ranges between signals are complete", "statement": "The range records between signals consist exactly of each pair of consecutive signals (one array), or of each signal paired with its nearest preceding/succeeding signal of the other array; partition records are exactly the maximal runs of true values.", "quantifier": "every boolean array(s) of any length", "why_tests_cant": "Exhaustive characterisation over all sequences.", "anchors": ["vectorbt/signals/nb.py: between_ranges_nb, between_two_ranges_nb, partition_ranges_nb, between_partition_ranges_nb"]}
{"id": "C35", "title": "Signal ranks count positions", "statement": "The position rank of a signal is the number of earlier signals in its run (optionally after the last reset signal), the partition rank is the number of earlier runs, and non-signals are ranked -1.", "quantifier": "every boolean array, reset array and option", "why_tests_cant": "Characterisation over all sequences of a stateful scan.", "anchors": ["vectorbt/signals/nb.py: rank_nb, sig_pos_rank_nb, part_pos_rank_nb"]}
{"id": "C36", "title": "Shifts are inverse up to fill", "statement": "Forward-shifting by n and back-shifting by n move each element by exactly n rows and fill the vacated rows with the fill value; shifting forward and back restores all rows that did not fall off the end; n larger than the array fills everything.", "quantifier": "every array, n >= 0 and fill value", "why_tests_cant": "Index arithmetic over all lengths and shifts.", "anchors": ["vectorbt/generic/nb.py: fshift_1d_nb, bshift_1d_nb"]}
{"id": "C37", "title": "Forward and backward fill use the nearest observation", "statement": "Forward fill replaces a missing value by the latest earlier non-missing value, leaves non-missing values alone, leaves a leading gap missing and is idempotent; backward fill is its mirror image.", "quantifier": "every array of any length", "why_tests_cant": "Universally quantified sequence property.", "anchors": ["vectorbt/generic/nb.py: ffill_1d_nb, bfill_1d_nb"]}
{"id": "C38", "title": "Rolling statistics equal their window definition", "statement": "Rolling min, max and mean at row i equal the min, max and mean of the non-missing values among the last `window` rows ending at i, and are missing when fewer than minp such values exist; a window of at least the array length gives the expanding statistic.", "quantifier": "every array, window >= 1 and minp <= window", "why_tests_cant": "Incremental algorithm versus window definition for all lengths.", "anchors": ["vectorbt/generic/nb.py: rolling_min_1d_nb, rolling_max_1d_nb, rolling_mean_1d_nb, expanding_min_1d_nb, expanding_max_1d_nb, expanding_mean_1d_nb"]}
{"id": "C39", "title": "Rolling functions do not look ahead", "statement": "Row i of every rolling/expanding/ewm function, forward shift, forward fill, crossover and cumulative return depends only on input rows <= i.", "quantifier": "every pair of arrays agreeing up to row i", "why_tests_cant": "A two-run property.", "anchors": ["vectorbt/generic/nb.py: rolling_*_1d_nb, expanding_*_1d_nb, ewm_mean_1d_nb, ffill_1d_nb, fshift_1d_nb, crossed_above_1d_nb", "vectorbt/returns/nb.py: cum_returns_1d_nb"]}
{"id": "C40", "title": "Drawdown records describe real drawdowns", "statement": "Each drawdown record has peak before valley before (or at) end, its peak value is the running maximum, its valley is the minimum between peak and end, it is recovered exactly when the end value is back at or above the peak, records of a column are disjoint and ordered, and every row below the running maximum lies in some record.", "quantifier": "every value series", "why_tests_cant": "State machine over arbitrary series including NaN gaps.", "anchors": ["vectorbt/generic/nb.py: get_drawdowns_nb"]}
{"id": "C41", "title": "Range records are the maximal runs", "statement": "Finding ranges returns exactly the maximal runs of non-gap values, with end index one past the run and status closed, or the last row and status open if the run reaches the end; converting them back to a mask gives precisely the non-gap rows, and coverage counts them. Finding: the normalised coverage of a group of columns counts each row once but divides by rows times columns, so that it never exceeds one over the number of columns.", "quantifier": "every array and gap value", "why_tests_cant": "Characterisation over all sequences plus a round trip.", "anchors": ["vectorbt/generic/nb.py: find_ranges_nb, ranges_to_mask_nb, range_coverage_nb, range_duration_nb"]}
{"id": "C42", "title": "Crossovers are detected once, when they happen", "statement": "A crossing above with wait=0 is flagged at row i exactly when the first series is above the second at i and was not above at the previous row, after having been strictly below since the last missing value.", "quantifier": "every pair of series and wait", "why_tests_cant": "Stateful scan over all sequences.", "anchors": ["vectorbt/generic/nb.py: crossed_above_1d_nb"]}
{"id": "C43", "title": "Returns compound back to value", "statement": "Cumulating the returns of a value series from its initial value reproduces the series (as long as no value is zero), and the total return equals final/initial - 1.", "quantifier": "every series of non-zero values", "why_tests_cant": "Round-trip over all sequences.", "anchors": ["vectorbt/returns/nb.py: get_return_nb, returns_1d_nb, cum_returns_1d_nb, cum_returns_final_1d_nb"]}
{"id": "C44", "title": "Drawdown of returns is never positive", "statement": "The drawdown series of cumulative returns is always <= 0 and the maximum drawdown lies in [-1, 0] when no return is below -1.", "quantifier": "every return series", "why_tests_cant": "Bound over all sequences.", "anchors": ["vectorbt/returns/nb.py: drawdown_1d_nb, max_drawdown_1d_nb"]}
{"id": "C45", "title": "Column map lists each column's records in order", "statement": "Mapping records to columns yields, for every column, exactly the indices of its records in ascending order; selecting columns through the map or, for sorted records, through ranges gives the same records with columns renumbered.", "quantifier": "every column array and column selection", "why_tests_cant": "Two algorithms must agree on all inputs.", "anchors": ["vectorbt/records/nb.py: col_map_nb, col_map_select_nb, record_col_map_select_nb, col_range_nb, col_range_select_nb, record_col_range_select_nb"]}
{"id": "C46", "title": "Top-N and bottom-N masks pick extremal elements", "statement": "The top-n (bottom-n) mask of a column selects min(n, number of records) records, and every selected value is >= (<=) every unselected one.", "quantifier": "every value array, column map and n", "why_tests_cant": "Order statistics for all arrays with ties and NaNs.", "anchors": ["vectorbt/records/nb.py: top_n_inout_map_nb, bottom_n_inout_map_nb, mapped_to_mask_nb"]}
{"id": "C47", "title": "Expanding mapped records is lossless when allowed", "statement": "A mapped array is reported expandable iff no two records share a row and column; when it is, expanding puts each record's value at its row and column and the fill value elsewhere.", "quantifier": "every mapped array", "why_tests_cant": "Universally quantified over record sets.", "anchors": ["vectorbt/records/nb.py: is_mapped_expandable_nb, expand_mapped_nb"]}
{"id": "C48", "title": "Flexible indexing equals broadcasting", "statement": "Reading an array through flexible indexing at row i and column j gives the element at (i, j) of the array broadcast to the full shape, for scalars, 1-d arrays per row or per column, and 2-d arrays with unit dimensions.", "quantifier": "every array shape compatible with the target shape, every cell", "why_tests_cant": "Equivalence of lazy and eager broadcasting for all shapes.", "anchors": ["vectorbt/base/reshape_fns.py: flex_choose_i_and_col_nb, flex_select_nb, flex_select_auto_nb"]}
{"id": "C49", "title": "Group lengths partition the columns", "statement": "For a sorted group array, group lengths are the counts of each group, sum to the number of columns, and start/end indices delimit consecutive intervals covering all columns; unsorted groups raise.", "quantifier": "every group array", "why_tests_cant": "Partition property over all arrays.", "anchors": ["vectorbt/base/column_grouper.py: get_group_lens_nb, ColumnGrouper.get_group_start_idxs, ColumnGrouper.get_group_end_idxs"]}
{"id": "C50", "title": "Splits partition each range in time order", "statement": "Splitting a range into sets yields consecutive, disjoint, non-empty index blocks that together make up the range in order, so a later set never contains an index before an earlier set; rolling and expanding splitters produce ranges inside the data with the requested length.", "quantifier": "every range, set lengths and splitting direction", "why_tests_cant": "Arithmetic partition property for all lengths and fractions.", "anchors": ["vectorbt/generic/splitters.py: split_ranges_into_sets, RangeSplitter.split, RollingSplitter.split, ExpandingSplitter.split"]}
{"id": "C51", "title": "Merging configuration dictionaries is right-biased and nested", "statement": "Merging dicts gives each key the value of the last dict containing it, except that nested dicts are merged recursively and atomic dicts replace; arguments are not modified; keys absent from the first dict are dropped when only overlapping keys are requested.", "quantifier": "every pair (list) of nested dictionaries", "why_tests_cant": "Recursive structure of any depth.", "anchors": ["vectorbt/utils/config.py: merge_dicts, update_dict, convert_to_dict, copy_dict"]}
{"id": "C52", "title": "Read-only and frozen configs stay that way", "statement": "No sequence of non-forced operations changes a read-only config, and none adds or removes keys of a frozen config; reset restores the state at creation or at the last checkpoint.", "quantifier": "every history of config operations", "why_tests_cant": "Invariant over operation histories.", "anchors": ["vectorbt/utils/config.py: Config.__setitem__, Config.__delitem__, Config.pop, Config.popitem, Config.clear, Config.update, Config.reset, Config.make_checkpoint"]}
{"id": "C53", "title": "Parameter products enumerate every combination once", "statement": "The parameter product contains every combination of parameter values exactly once in lexicographic order, all parameter lists have equal length; broadcasting parameters repeats singletons to the common length and rejects other lengths. create_param_combs evaluates a tree of operations from the inside and gives one list per innermost value of the tuples at the root, with the values of tuple i at position i.", "quantifier": "every list of parameter lists", "why_tests_cant": "Combinatorial identity for any number and size of lists.", "anchors": ["vectorbt/utils/params.py: create_param_product, broadcast_params, flatten_param_tuples, create_param_combs"]}
{"id": "C54", "title": "Initial cash and value series are laid out correctly", "statement": "Cash series start from initial cash plus the first row's flow and accumulate flows; grouped cash and value series are the sums over the group's columns; in-simulation-order value at the last called column equals the group's value.", "quantifier": "every flow matrix, grouping and call sequence", "why_tests_cant": "Accumulation identities for all shapes.", "anchors": ["vectorbt/portfolio/nb.py: cash_nb, cash_grouped_nb, sum_grouped_nb, value_in_sim_order_nb, cash_in_sim_order_nb, init_cash_grouped_nb"]}
{"id": "C55", "title": "Position records track the open position", "statement": "The running position record maintained during simulation agrees, after each order, with the position record computed afterwards from the orders: same entry/exit sizes, average prices, fees, PnL, return, direction and status.", "quantifier": "every order history", "why_tests_cant": "Incremental versus batch computation over histories.", "anchors": ["vectorbt/portfolio/nb.py: update_pos_record_nb, update_open_pos_stats_nb, fill_position_record_nb, get_positions_nb"]}
{"id": "C56", "title": "Previewing an order has no side effects", "statement": "Trying an order returns the result that processing it would give, without changing cash, positions or records.", "quantifier": "every context and order", "why_tests_cant": "Equality of two code paths on all inputs.", "anchors": ["vectorbt/portfolio/nb.py: try_order_nb, process_order_nb"]}
{"id": "C57", "title": "Row-wise and column-wise simulation agree", "statement": "Simulating row by row or group by group gives each column the same sequence of orders and the same final balances when callbacks depend only on their own group.", "quantifier": "every shape, grouping, callback and segment mask", "why_tests_cant": "Loop interchange argument over all inputs and callbacks.", "anchors": ["vectorbt/portfolio/nb.py: simulate_nb, simulate_row_wise_nb"]}
{"id": "C58", "title": "Order-array simulation is an instance of callback simulation", "statement": "Simulating from order arrays produces the same orders as the callback-based simulator driven by an order function that reads the same arrays.", "quantifier": "every input and grouping", "why_tests_cant": "Equivalence of two simulators.", "anchors": ["vectorbt/portfolio/nb.py: simulate_from_orders_nb, simulate_nb"]}
{"id": "C59", "title": "Labels look only into their declared window", "statement": "Breakout labels report 1/-1 exactly when the first threshold crossing within the next period is up/down, else 0; fixed and future-window labels at row i depend only on rows i..i+window+wait; local extrema alternate between peaks and troughs and adjacent ones differ by at least the threshold.", "quantifier": "every price series, thresholds and windows", "why_tests_cant": "First-hit and alternation properties over all sequences.", "anchors": ["vectorbt/labels/nb.py: breakout_labels_nb, future_*_apply_nb, fixed_labels_apply_nb, local_extrema_apply_nb"]}
{"id": "C60", "title": "Oscillators stay within their bounds", "statement": "Stochastic %K is within [0, 100] whenever low <= close <= high, RSI is within [0, 100], Bollinger lower <= middle <= upper for non-negative width, true range is at least high-low and non-negative.", "quantifier": "every OHLC series and window", "why_tests_cant": "Bounds over all real series.", "anchors": ["vectorbt/indicators/nb.py: stoch_apply_nb, rsi_apply_nb, bb_apply_nb, true_range_nb"]}
{"id": "C61", "title": "Stop-exit generation finds the first hit", "statement": "Stop and OHLC stop choice functions return exactly the first row (optionally all rows) after the entry at which the stop condition holds, with the hit price between the open and the stop level and stop-loss taking precedence over take-profit in the same bar.", "quantifier": "every price path, stop settings and range", "why_tests_cant": "First-hit property over all paths.", "anchors": ["vectorbt/signals/nb.py: stop_choice_nb, ohlc_stop_choice_nb, first_choice_nb"]}
{"id": "C62", "title": "Index alignment returns matching positions", "statement": "Aligning an index to another returns, for each target element, the position of the equal element in the source; the tiled shortcut and the element-wise search give the same answer.", "quantifier": "every pair of indexes where alignment succeeds", "why_tests_cant": "Agreement of two algorithms on all inputs.", "anchors": ["vectorbt/base/index_fns.py: align_index_to, _align_index_to_nb"]}
{"id": "C63", "title": "Data updates keep the latest value per timestamp", "statement": "Updating data keeps all old timestamps, adds all new ones, keeps index labels unique, and for timestamps present in both takes the new value.", "quantifier": "every old and new data set, every history of updates", "why_tests_cant": "Set/map property over arbitrary histories of updates.", "anchors": ["vectorbt/data/base.py: Data.update, Data.align_index"]}
{"id": "C64", "title": "Cache decisions follow the most specific condition", "statement": "Whether a property or method is cached is decided by the most specific matching whitelist/blacklist condition, with the global flag breaking ties; cached access returns the same value as the first computation until cleared.", "quantifier": "every set of conditions, instance and function", "why_tests_cant": "Decision logic over arbitrary condition lists.", "anchors": ["vectorbt/utils/decorators.py: should_cache, cached_property, cached_method"]}
{"id": "C65", "title": "Template substitution reaches every template", "statement": "Deep substitution replaces every template inside nested dicts, lists, tuples and sets, leaves template-free objects untouched, and explicit mapping entries override the template's own mapping.", "quantifier": "every nested object and mapping", "why_tests_cant": "Structural recursion of any depth.", "anchors": ["vectorbt/utils/template.py: deep_substitute, has_templates"]}
{"id": "C66", "title": "Rolling standard deviation equals its window definition", "statement": "For a series without infinite values, the rolling (and expanding) standard deviation at row i is the square root of the sum of squared deviations of the non-missing values among the last `window` rows from their mean, divided by their number minus ddof; it is missing when fewer than max(minp, 1) or at most ddof such values exist. Neither the compensation terms nor recomputing an unstable window changes the result in exact arithmetic.", "quantifier": "every series without infinities, window, minp <= window and ddof", "why_tests_cant": "The incremental add/remove recurrence must agree with the definition for all lengths, windows and positions of missing values.", "anchors": ["vectorbt/generic/nb.py: rolling_std_1d_nb, _add_var_nb, _remove_var_nb, expanding_std_1d_nb"]}
{"id": "C67", "title": "Functions over a column of records see exactly that column's values", "statement": "Reducing a mapped array gives, for each column, the function applied to the values of the column's records in record order, or the fill value for a column without records; reducing to an index gives the index of the record the function picked within the column; applying a function writes its k-th value to the k-th record of the column; value counts are the numbers of records with that column and code.", "quantifier": "every mapped array, column assignment (in any order) and user function", "why_tests_cant": "The functions go through the column map for records in arbitrary order and arbitrary user functions.", "anchors": ["vectorbt/records/nb.py: reduce_mapped_nb, reduce_mapped_to_idx_nb, apply_on_mapped_nb, apply_on_records_nb, mapped_value_counts_nb"]}
{"id": "C68", "title": "Cached indicator values equal direct computation", "statement": "The caching functions of the indicators compute each parameter combination once; looking up any of the given combinations always succeeds and returns exactly what computing it directly returns, as long as the hashes of the given combinations do not collide; on a collision the value of the earlier combination is returned. MACD finds both its fast and its slow average.", "quantifier": "every list of parameter combinations, every computation and every hash function", "why_tests_cant": "Agreement of cached and direct results over arbitrary parameter lists.", "anchors": ["vectorbt/indicators/nb.py: ma_cache_nb, ma_apply_nb, macd_cache_nb, macd_apply_nb, rsi_cache_nb, stoch_cache_nb, atr_cache_nb"]}
{"id": "C69", "title": "On-balance volume moves by the volume of each bar", "statement": "On-balance volume at each row equals the sum over all rows so far of the volume, negated where the close is below the previous close; missing volumes count as zero; nothing depends on later rows.", "quantifier": "every close and volume series", "why_tests_cant": "Cumulative identity over series of any length.", "anchors": ["vectorbt/indicators/nb.py: obv_custom_nb"]}
{"id": "C70", "title": "The value by which orders are sorted is the value they trade", "statement": "approx_order_value_nb returns, for amounts, values and targets, the requested amount at the valuation price, so that automatic call sequences call the columns of a group in ascending order of the values they ask for. For percentages it returns the value that an order without costs actually trades when filled at the valuation price.", "quantifier": "every order, every balance, every group of columns", "why_tests_cant": "Relates an estimate to the outcome of processing for arbitrary balances and size types.", "anchors": ["vectorbt/portfolio/nb.py: approx_order_value_nb, sort_call_seq_out_nb, simulate_from_orders_nb"]}
{"id": "C71", "title": "Debt and free cash are those of a margin account", "statement": "At the end of every row the debt of each column and the free cash of each group are those obtained by booking the column's order records one after another in a margin account: selling short adds the proceeds to the debt and blocks them twice, buying back releases a proportional share of the debt, everything else moves free cash by the amount paid or received. Portfolio.cash(free=True), which is recomputed from the records alone, equals the free cash the simulation had.", "quantifier": "every simulation from orders or signals, every row, column and group", "why_tests_cant": "An invariant over arbitrary sequences of orders, including reversals and partial covers.", "anchors": ["vectorbt/portfolio/nb.py: buy_nb, sell_nb, execute_order_nb, get_free_cash_diff_nb, cash_flow_nb", "vectorbt/portfolio/base.py: Portfolio.cash_flow, Portfolio.cash"]}
{"id": "C72", "title": "Long and short assets split the position", "statement": "assets(direction='longonly') is the positive part of the position and assets(direction='shortonly') the negative part, so their difference is the position; the flows in a direction accumulate row by row to the assets in that direction, also when an order reverses the position; position_mask is set exactly where there are assets in the direction, for groups where this holds for some column; position coverage is the share of such cells.", "quantifier": "every simulation from orders or signals, every row, column, group and direction", "why_tests_cant": "An accumulation identity over arbitrary sequences of orders.", "anchors": ["vectorbt/portfolio/base.py: Portfolio.assets, Portfolio.asset_flow, Portfolio.position_mask, Portfolio.position_coverage", "vectorbt/portfolio/nb.py: asset_flow_nb, get_long_size_nb, get_short_size_nb, position_mask_grouped_nb, position_coverage_grouped_nb"]}
{"id": "C73", "title": "Exposure is the invested share", "statement": "Gross exposure is always between 0 and 1 when free cash is not negative: it is the absolute value held (in the direction, added up over the columns of a group, so that long and short do not cancel) divided by that value plus free cash, 0 when there is nothing at all, and 0 for a column without assets even if its price is missing. Net exposure lies between -1 and 1 and has the sign of the position. Without short positions gross exposure is asset value divided by portfolio value, as documented.", "quantifier": "every price, position, free cash, direction and group; every simulation state without debt", "why_tests_cant": "Bounds and guards for all balances, including zero denominators and missing prices.", "anchors": ["vectorbt/portfolio/base.py: Portfolio.gross_exposure, Portfolio.net_exposure, Portfolio.asset_value", "vectorbt/portfolio/nb.py: gross_exposure_nb, asset_value_grouped_nb"]}
{"id": "C74", "title": "Automatic initial cash is what the trades need", "statement": "With init_cash='auto' the cash balance of a column or group never goes below zero; if the trades need money at all, no smaller initial amount achieves this and the cash is used up in some row; if they need none, the amount is 1. With 'autoalign' all columns get the largest of these amounts.", "quantifier": "every cash flow of any length, any number of columns", "why_tests_cant": "A minimality statement over all initial amounts and all flows.", "anchors": ["vectorbt/portfolio/base.py: Portfolio.get_init_cash", "vectorbt/portfolio/nb.py: cash_nb, cash_grouped_nb"]}
{"id": "C75", "title": "A hit stop decides the order of the bar", "statement": "In simulations from signals with stops, a bar that reaches the stop loss (checked first) or the take profit of an open position places the order documented for the stop-exit mode and the cell's accumulation, at the price of the stop-exit price mode, whatever signals the bar has; otherwise the resolved signals decide. With a signal function, the stops in force are those the adjustment hooks return, and the hooks see the stops as they were.", "quantifier": "every bar, position, stop, mode, hook and signal", "why_tests_cant": "Composition of stop levels, modes and accumulation over all real prices.", "anchors": ["vectorbt/portfolio/nb.py: simulate_from_signals_nb, simulate_from_signal_func_nb, get_stop_price_nb, generate_stop_signal_nb, resolve_stop_price_and_slippage_nb"]}
{"id": "C76", "title": "The callbacks of a simulation are called in the documented order", "statement": "A simulation with order callbacks calls, in this order and nothing else: the function before the simulation; for each group (or, row-wise, each row) the function before it, its segments, the function after it; the function after the simulation. An active segment calls the function before the segment, then for each column of the call sequence the order function and the function after the order, then the function after the segment; an inactive segment calls only those asked for by call_pre_segment and call_post_segment. With a flexible order function, the orders are asked for with call numbers 0, 1, 2, ... until -1 is returned. Observing the calls changes nothing in the result.", "quantifier": "all callbacks with any memory and any writes, all shapes, groupings, masks and call sequences, all four simulators", "why_tests_cant": "A statement about the whole call trace for arbitrary user callbacks.", "anchors": ["vectorbt/portfolio/nb.py: simulate_nb, simulate_row_wise_nb, flex_simulate_nb, flex_simulate_row_wise_nb"]}
{"id": "C77", "title": "Flexible simulation generalises the simulation with a call sequence", "statement": "flex_simulate_nb with an order function that goes through the call sequence and asks a given order function for each column gives the same result as simulate_nb with that order function: the same records, logs, balances, memory and errors; likewise row-wise. This requires that the order function does not write to the current values of its column, which the two simulators read at different moments.", "quantifier": "all callbacks and inputs", "why_tests_cant": "Equality of two simulators for arbitrary user callbacks.", "anchors": ["vectorbt/portfolio/nb.py: flex_simulate_nb, flex_simulate_row_wise_nb, simulate_nb, simulate_row_wise_nb"]}
{"id": "C78", "title": "Balances of a simulation with callbacks agree with its records", "statement": "In every simulation with order callbacks, whenever a callback is called and at the end, the position of each column is the total bought minus the total sold in the order records so far, and the cash of each column (or group, when cash is shared) is the initial cash plus proceeds minus costs and fees, up to a bound on what the rounding-to-zero tolerances swallow; callbacks may do anything except write to the balance in question. Cash is never negative if no callback makes it so.", "quantifier": "all callbacks with any memory, all orders, shapes, groupings, masks and call sequences, all four simulators, every relative tolerance below 1 and absolute tolerance", "why_tests_cant": "An invariant of every intermediate state for arbitrary user code.", "anchors": ["vectorbt/portfolio/nb.py: simulate_nb, simulate_row_wise_nb, flex_simulate_nb, flex_simulate_row_wise_nb, process_order_nb"]}
{"id": "C79", "title": "Records of a simulation with callbacks are well formed and found by position", "statement": "In every simulation with order callbacks, whenever a callback is called and at the end: order and log ids count from 0 in the order written, the counters are the numbers of records, rows and columns lie in the shape, a log record points to its order exactly if that was filled, and last_oidx / last_lidx of a column point to its last record, -1 without one. The records come segment by segment: group after group and row after row (row-wise: row after row and group after group), so that within a column (row-wise: altogether) rows do not decrease.", "quantifier": "all callbacks, inputs, shapes and groupings, all four simulators, every arithmetic", "why_tests_cant": "An invariant of every intermediate state for arbitrary user code and any number of orders per segment.", "anchors": ["vectorbt/portfolio/nb.py: simulate_nb, simulate_row_wise_nb, flex_simulate_nb, flex_simulate_row_wise_nb, process_order_nb"]}
{"id": "C80", "title": "Every column of an indicator belongs to its parameter combination", "statement": "Running an indicator made from an apply function over lists of parameter values gives, for the k-th combination and the c-th input column, output column k*w+c holding what the apply function computes for that combination alone, labelled with the shown parameter values and the input column, and mapped back to that input column and these values; so do in-place outputs, provided or not. Combinations are taken position by position with single values repeated, or all of them with param_product. run_unique changes nothing. The Python and the Numba loop concatenate to the same arrays, whatever the fresh buffers hold. With per_column, column c is the function of input column c and the c-th combination. use_raw with raw outputs that contain all combinations gives the same result as running, and raises ValueError otherwise. run_combs gives one instance per element of the combinations, each showing its own parameters, with and without run_unique. The first combination that raises ends the run with its exception. Providing only some of the in-place outputs, or hiding all parameters of several combinations, never works; with per_column, in-place outputs without parameters fail for two columns, and run_combs with run_unique takes repeated combinations from the first input column.", "quantifier": "all apply functions, inputs, parameter lists, hidden levels, labels, buffers and combination functions", "why_tests_cant": "Tests run a handful of indicators on one table of three columns with two or three parameter values and compare printed tables; offsets, deduplication and reuse are never tried with arbitrary functions, shapes and repetitions.", "anchors": ["vectorbt/indicators/factory.py:1270-2011", "vectorbt/indicators/factory.py:2120-2142", "vectorbt/indicators/factory.py:3006-3415", "vectorbt/base/combine_fns.py:19-156"]}
{"id": "C81", "title": "User functions are given exactly their column, row, window or group", "statement": "apply_along_axis, rolling_apply, expanding_apply, groupby_apply, resample_apply, applymap, filter, apply_and_reduce, reduce (plain, grouped, flattened in C and F order), squeeze_grouped, flatten_grouped and value_counts call the user function with exactly the values of its column, row, window, label or column group and put each result where it belongs; windows with fewer than minp present values are NaN; grouped idxmin returns a row that holds the minimum of the group; flattened groups contain each cell once and NaN elsewhere; counts of a group add up to its cells.", "quantifier": "all arrays, shapes, windows, minp, group lengths, user functions and contents of uninitialised memory", "why_tests_cant": "Needs all user functions, all group layouts and all contents of uninitialised arrays.", "anchors": ["vectorbt/generic/nb.py: apply_nb .. any_squeeze_nb (1107-1643)", "vectorbt/generic/accessors.py: groupby_apply, resample_apply, reduce, flatten_grouped"]}
{"id": "C82", "title": "Risk ratios say what their names say", "statement": "Over the present returns: Sharpe is mean excess over sample deviation times the root of the annualisation factor, unchanged by leverage, positive exactly if the mean exceeds the risk-free return; information ratio is the Sharpe ratio of active returns; beta is covariance over variance of the rows where both series are present, linear in the returns, 1 for the benchmark; alpha of a levered benchmark is the fixed return added; omega is gains over losses around the threshold and exceeds 1 exactly if the mean does; downside risk is zero exactly if nothing falls short; Sortino inf exactly then; value at risk is a quantile, between the extremes, monotone in the cutoff, equivariant under leverage; conditional value at risk is at most value at risk; the benchmark captures all of itself; up and down capture depend only on their periods; rolling versions are the metric of the aligned windows. A strategy without risk gets a ratio that is not misleading.", "quantifier": "all return series without infinities, benchmarks, thresholds, cutoffs, windows; all square roots and powers agreeing with the true ones at the values that occur", "why_tests_cant": "Algebraic laws and order relations between metrics over all series.", "anchors": ["vectorbt/returns/nb.py: 99-776", "vectorbt/generic/nb.py: nanstd_1d_nb"]}
{"id": "C83", "title": "The Rust engine executes an order as the Numba engine does", "statement": "Executing or processing an order with the Rust engine returns the same balances, result, records and errors as with the Numba engine, so a user may switch engines. True in binary64 for orders without granularity and locked cash, in exact arithmetic also with them, except where Numba raises a division by zero. False for an order of zero percent (Numba fills a sale of NaN, Rust rejects a purchase), for divisions by zero (Rust carries on), for granularities that binary64 cannot represent (0.1: nine steps against ten), and where a NaN reaches a minimum.", "quantifier": "all states, orders, random numbers, records buffers; every arithmetic that rounds like IEEE 754", "why_tests_cant": "Two implementations agree on all inputs of a class; tests compare them on samples.", "anchors": ["rust/src/portfolio.rs: buy, sell, execute_order, process_order", "vectorbt/portfolio/nb.py: buy_nb, sell_nb, execute_order_nb, process_order_nb"]}
{"id": "C84", "title": "A simulation from orders on the Rust engine returns the records of the Numba engine", "statement": "Portfolio.from_orders gives the same order and log records, or the same error, on both engines, for any number of rows, columns and groups, with or without cash sharing and with or without automatic call sequences; array arguments are accepted iff they broadcast and each cell reads the same element. True in binary64 without locked cash and granularity if no divisor made of the arguments is zero and, when calls are sorted, no percentage order can open a short position; in exact arithmetic also with locked cash, granularity and such orders if they have a valuation price. False when a short percentage order without a valuation price is sorted (the estimate is NaN on one engine only).", "quantifier": "all shapes, groups, array arguments, call sequences, record capacities; every arithmetic that rounds like IEEE 754", "why_tests_cant": "The engines use different loops (column by column, or group by group with phases), so agreement is a simulation argument over all runs; tests compare samples.", "anchors": ["rust/src/portfolio.rs: simulate_from_orders_py, simulate_from_orders_inner, simulate_from_orders_non_shared_inner, approx_order_value", "rust/src/generic.rs: FlexArray", "vectorbt/portfolio/nb.py: simulate_from_orders_nb"]}
{"id": "C85", "title": "A simulation from signals on the Rust engine returns the records of the Numba engine", "statement": "Portfolio.from_signals gives the same order and log records on both engines, for any signals, conflict rules, accumulation modes, stop losses (trailing or not), take profits and stop updates, for any number of rows, columns and groups, with or without cash sharing and automatic call sequences; when one engine raises an error, the other raises an error with the same message. True in binary64 without locked cash and granularity unless the Numba engine divides by zero (which it cannot without stops and sizes by value if fees are not -1 and prices after slippage are not zero) and, when calls are sorted, if no size is a percentage; in exact arithmetic also with locked cash and granularity. False about the class of errors: five messages that are ValueErrors on Numba are RejectedOrderErrors on Rust, which are not ValueErrors; and where Numba divides by zero, Rust carries on.", "quantifier": "all shapes, groups, array arguments, signals, stops, call sequences, record capacities; every arithmetic that rounds like IEEE 754", "why_tests_cant": "The engines keep stops in different variables and use different loops; agreement is a simulation argument over all runs.", "anchors": ["rust/src/portfolio.rs: simulate_from_signals_py, simulate_from_signals_inner, simulate_from_signals_non_shared_inner, process_signals_at, signals_to_size", "vectorbt/portfolio/nb.py: simulate_from_signals_nb"]}
{"id": "C86", "title": "Selecting columns or groups of a portfolio reads off their results", "statement": "pf[...] returns a portfolio that holds exactly the selected columns (close, call sequence, order and log records renumbered, initial cash), and asset flow, assets, cash flow, initial cash, cash, asset value, value, total profit, final value and total return of the selection are those of the whole portfolio at the selected columns; when groups are selected, the columns are those of the groups in the order selected, grouped as before, and the same holds for the results per group. True for columns without cash sharing, for the columns of any number of groups, and per group for one or two selected groups. False for three or more groups (the marks of groups are placed at the lengths instead of the cumulated lengths, so columns of different groups are merged), with InitCashMode.AutoAlign (the alignment is redone over the selection), and for columns of groups that share cash (the cash of a group is read at the number of the column, or an IndexError is raised).", "quantifier": "all portfolios, selections, labels, records, closes, initial cash, and every arithmetic", "why_tests_cant": "The selection is made of index arithmetic over any number of groups of any lengths; tests select one or two groups, where it is right.", "anchors": ["vectorbt/base/array_wrapper.py: ArrayWrapper.indexing_func_meta", "vectorbt/utils/array_.py: get_ranges_arr", "vectorbt/records/base.py: Records.get_by_col_idxs", "vectorbt/portfolio/base.py: Portfolio.indexing_func, get_init_cash, cash, value, total_profit"]}
{"id": "C87", "title": "group_by replaces the groups only where it is allowed, and results per group carry the labels of the groups", "statement": "Passing group_by to a method or to regroup() uses exactly the groups asked for if the restrictions allow it (enabling, disabling, or putting other columns together) and raises otherwise; renaming groups never counts as modifying them; labels of the wrong number are never taken; regrouping changes nothing but the groups. A portfolio with cash sharing never adopts other groups: regroup() at most renames them, ungrouping for good raises, and a method computes over the groups held or over none. What is computed per group comes with one entry per group, labelled by the distinct labels in the order of appearance; a single group gives a scalar. The last part is false if group_by is a pd.Index that turns one group into several (the Series comes without the labels, named after the first group) or several into one (a Series instead of a scalar): is_group_count_changed compares numbers of columns.", "quantifier": "all columns, labels, groups held, restrictions, and every kind of group_by", "why_tests_cant": "That equal codes mean the same partition concerns labellings of any length; the flag kept across regroupings is wrong only for a change of the number of groups by a pd.Index, in any number of columns.", "anchors": ["vectorbt/base/column_grouper.py: ColumnGrouper", "vectorbt/base/array_wrapper.py: ArrayWrapper.regroup, resolve, wrap_reduced", "vectorbt/portfolio/base.py: Portfolio.wrapper, Portfolio.regroup"]}
{"id": "C88", "title": "The Rust engine of the time series functions returns what the Numba engine returns", "statement": "For every 2-dim array in either memory layout, fshift, bshift, diff, pct_change, ffill, bfill, rolling_min, rolling_max, rolling_std, expanding_min, expanding_max and crossed_above give the same cells (and the same error for minp) with engine='rust' as with engine='numba', whatever the rounding. expanding_mean, ewm_mean and ewm_std do so whenever Numba returns: Numba raises where minp exceeds the rows, and divides by zero with span 0 or with minp 0 and no value, while Rust returns NaN or infinity. rolling_mean and expanding_std agree in exact arithmetic only: they sum in another order, and with doubles the mean of a window after a huge value, and the deviation of equal values, differ between the engines.", "quantifier": "all arrays of any shape, layout and content (NaN and infinities included), all windows, spans, minp, ddof, and every arithmetic where not said otherwise", "why_tests_cant": "The loops keep counts and sums over any number of rows; tests compare the engines on a few random arrays with tolerance, in one layout.", "anchors": ["rust/src/generic.rs: fshift_rs \u2026 crossed_above_rs", "vectorbt/generic/nb.py: fshift_1d_nb \u2026 crossed_above_1d_nb", "vectorbt/generic/dispatch.py"]}
{"id": "C89", "title": "The Rust engine finds the ranges, drawdowns and extremes of the Numba engine", "statement": "For every 2-dim array in either memory layout find_ranges and get_drawdowns of the Rust engine store exactly the records of the Numba engine: same ids, columns, rows, values, status and order. For the ranges of a series the durations are their numbers of rows, the mask marks exactly the cells other than the gap value, and the coverage equals that of the Numba engine, which never raises; for other records inside their index the coverage is the same unless Numba divides by zero, where Rust returns NaN or infinity; rows outside of the index panic in Rust. argmin_reduce and argmax_reduce of Rust return the first position of the best value that is not NaN, and raise if all are NaN; Numba does the same unless all values are infinite, when it returns 0 even if a NaN is there.", "quantifier": "all arrays of any shape, layout and content, all gap values, all lists of range records with any column map", "why_tests_cant": "Two loops per function keep a state over any number of rows, one for each memory layout; tests run the engines on a few arrays in one layout.", "anchors": ["rust/src/generic.rs: find_ranges, range_duration, range_coverage, ranges_to_mask, get_drawdowns, argmin_reduce_1d, argmax_reduce_1d", "vectorbt/generic/nb.py: find_ranges_nb \u2026 get_drawdowns_nb, argmin_reduce_nb, argmax_reduce_nb"]}
{"id": "C90", "title": "The Rust engine derives the trades and positions of the Numba engine", "statement": "From the same orders the Rust engine returns the entry trades and exit trades of the Numba engine, record by record, or both raise ValueError, unless the Numba engine divides by zero. The trades returned are listed by column, and of trades listed by column both engines return the same positions under the same condition. Without rounding, filled orders (a side, positive size and price) never lead to a division by zero, and every trade has a positive size and entry price, so trades and positions always agree. Winning and losing streaks agree. In doubles, a purchase whose size times price underflows raises ZeroDivisionError in Numba and returns an infinite return in Rust; of trades not listed by column Numba adds trades of other columns to a position and Rust does not.", "quantifier": "all order records of any number, in any columns, any closing prices, any rounding that keeps order and represents small integers (in particular IEEE doubles), all tolerances", "why_tests_cant": "The engines keep different variables over any number of orders (Numba stores the entry gross value it never needs, Rust aggregates a position while scanning); tests compare them on a few histories.", "anchors": ["rust/src/portfolio.rs: get_entry_trades, get_exit_trades, get_positions, trade_winning_streak, trade_losing_streak", "vectorbt/portfolio/nb.py: get_entry_trades_nb, get_exit_trades_nb, get_positions_nb, trade_winning_streak_nb, trade_losing_streak_nb"]}
{"id": "C91", "title": "The Rust engine reconstructs the assets, cash and value of the Numba engine", "statement": "From the same order records the Rust engine returns, column by column, the asset flow, cash flow (of all cash or of free cash), assets, cash, value and total profit of the Numba engine, or both raise the same ValueError. Sums over groups, cash per group, initial cash per group, and cash, value and returns in the order of simulation are the same in every cell called; asset returns, benchmark returns, gross exposure and the benchmark of a group are the same. Three things differ. Where group lengths do not sum to the number of columns, every Numba function over groups raises ValueError and the Rust functions do not check. Initial cash that is NaN in a group sharing cash is filled from the previous group by Numba only. The benchmark value is the same without rounding; in doubles the Numba benchmark starts exactly at the initial cash, and the Rust benchmark need not.", "quantifier": "all order records with representable sizes, any number of rows, columns and groups, any call sequences within groups, any contents of uninitialised memory, any rounding that keeps order and represents small integers (in particular IEEE doubles), all tolerances", "why_tests_cant": "The engines go over the same data in different orders with different variables (a flat buffer, checks, multiplication in another order); tests compare a few arrays up to a tolerance.", "anchors": ["rust/src/portfolio.rs: asset_flow, assets, cash_flow, sum_grouped, init_cash, init_cash_grouped, cash, cash_in_sim_order, cash_grouped, value_in_sim_order, total_profit, returns_in_sim_order, asset_returns, benchmark_value, benchmark_value_grouped, total_benchmark_return, gross_exposure", "vectorbt/portfolio/nb.py:6485-7013"]}
{"id": "C92", "title": "The Rust engine generates, cleans, ranks and locates signals like the Numba engine", "statement": "Cleaning of entries and exits, exits by stops after entries, entries and exits in turns by stops, the same two by OHLC stops (with stop prices and stop types), the four kinds of ranges of signals, the ranks of signals and partitions, and the index of the n-th signal are in the Rust engine the arrays and records of the Numba engine, and where one raises the other raises the same ValueError. The loops that place entries and exits in turns come to an end within 2n+5 turns per column. The n-th index is the n-th signal counted from 0, or from the end for negative n, and -1 if there is none. The normalized average index is the same number to the last bit in both engines and for both memory layouts as long as the sum of the rows is at most 2^53, NaN without signals or for a single row, and lies in [-1, 1] even in double precision.", "quantifier": "all arrays of any number of rows and columns, all stops including NaN and negative ones, all waits >= 0, all flags, any contents of uninitialised memory, any rounding (for the average index: any rounding that keeps order and represents small integers, in particular IEEE doubles)", "why_tests_cant": "The Rust functions have other loops than the Numba functions (a search for the next entry instead of a list of entries, positions in lists instead of what is left of them, row-major sums, no callbacks, a separate search for the first stop); tests compare them on a few arrays.", "anchors": ["rust/src/signals.rs: clean_enex_1d, clean_enex_2d, generate_stop_ex, generate_stop_enex, generate_ohlc_stop_ex, generate_ohlc_stop_enex, between_ranges, between_two_ranges, partition_ranges, between_partition_ranges, sig_pos_rank, part_pos_rank, nth_index, norm_avg_index", "vectorbt/signals/nb.py:92-290", "vectorbt/signals/nb.py:560-1052", "vectorbt/signals/nb.py:1059-1318"]}
{"id": "C93", "title": "The engine asked for is the engine that runs, and Rust is only given what it can take unchanged", "statement": "engine='numba' runs Numba and does not even look for vectorbt_rust. engine='rust' runs Rust or raises (ImportError if no compatible package is installed, else ValueError with the reason) and never falls back. engine='auto' raises neither: it runs Rust exactly if a package of the same release is available and the arguments are taken, and Numba otherwise. Other names raise ValueError; None means settings['engine'], except for random functions, for which None and 'auto' mean Numba whatever the settings are; their seed is handed on exactly if Rust runs. Availability is looked up once and the answer stands until clear_engine_cache. A call is supported iff each of its conditions is, the reason is that of the first that is not. An array is taken iff it has one or two dimensions and a dtype of the same class (booleans, integers, floats) all of whose numbers are numbers of the dtype wanted, and then every element is passed unchanged; arrays that are written to are taken only in the exact dtype. Arrays read cell by cell must broadcast to the shape of the call. generate_stop_ex with arrays and a non-negative wait returns the same for every engine that does not raise. It does not where the checks are incomplete: a negative wait raises OverflowError under 'auto' only where Rust is installed, a number in place of an array works only there, a number may be changed by its conversion (1.5 becomes the integer 1), and an infinite number for an integer array raises OverflowError even with engine='numba'.", "quantifier": "all engine names, settings, versions with a dot, cached states, sequences of installations and cache clearings, all dtypes, shapes and contents of the arrays, any rounding in the kernels", "why_tests_cant": "Tests run in one environment with one installed version; which values a cast keeps is a statement about all numbers of a dtype, and independence of the engine is a statement about all arguments and all environments.", "anchors": ["vectorbt/_engine.py:51-370", "vectorbt/signals/dispatch.py:394-446", "rust/src/signals.rs:1602-1636", "rust/src/generic.rs:215-293"]}
{"id": "C94", "title": "Returns and risk ratios do not depend on the engine", "statement": "For arrays in either memory layout the Rust engine returns the returns and cumulative returns of the Numba engine cell by cell with any rounding; beta and alpha with any rounding; total and annualized returns, omega ratio, downside risk, Sortino ratio and the captures with any sound rounding (IEEE doubles among them); volatility, Sharpe and information ratio, drawdowns, maximum drawdown and Calmar ratio in exact arithmetic; value at risk and tail ratio in exact arithmetic for columns without infinities and a cutoff between 0 and 1; conditional value at risk in exact arithmetic whatever order the smallest values are found in. The fast loops over rows give what the loop over columns gives with any rounding. The rolling versions apply the kernel to the same windows and leave the same cells NaN; asking for more values than the window holds, a benchmark of another shape and a wrong number of initial values raise ValueError. The engines differ for an annualization factor 0 in the omega ratio and a Levy alpha 0 in the volatility (ZeroDivisionError with Numba only), for the drawdown of empty windows (ValueError with Numba, infinity with Rust), for arrays without columns in the standard layout (Rust panics), and in the last digits of deviations and drawdowns in binary64.", "quantifier": "all arrays of floats including NaN and infinities, both layouts, all windows and minp, all square roots with sqrt(NaN) = NaN and all powers", "why_tests_cant": "Tests compare the engines on a few arrays with a tolerance; they do not show that the row-wise loops agree with the column-wise ones for every layout, nor which ratios agree to the last digit.", "anchors": ["rust/src/returns.rs:11-1605", "vectorbt/returns/nb.py:30-776"]}
{"id": "C95", "title": "Selecting, sorting, expanding and masking records does not depend on the engine", "statement": "For column numbers in range the Rust engine builds the column map and the column range of the Numba engine (ValueError for columns that are not ascending), selects the positions of the chosen columns in the order of the choice with their new numbers, checks sorting by column and by (column, id), tells whether mapped values can be expanded (no two records in one cell), expands and stacks them with fill values elsewhere, counts values per code and column, and marks the n largest or smallest values of each column with the ties and NaNs of the Numba engine, whatever selection algorithm finds the n-th element. Contiguous record arrays are selected by column with the column field rewritten; views with strides are accepted by the Rust engine and give wrong records. A negative n raises OverflowError with Rust and marks nothing with Numba; stacking without columns returns an empty array with Rust and raises with Numba; column numbers out of range panic, except that with exactly one column every number means this column in the map while the range loses records.", "quantifier": "all lists of column numbers, records, values including NaN and infinities, all selections of columns, all n", "why_tests_cant": "Tests compare a few arrays with one algorithm for the n-th element and never with strided record views.", "anchors": ["rust/src/records.rs:14-867", "vectorbt/records/nb.py:30-491", "vectorbt/records/dispatch.py:20-420", "vectorbt/records/col_mapper.py:37-51"]}
{"id": "C96", "title": "Labels do not depend on the engine", "statement": "For prices of any memory layout the Rust engine returns the labels of the Numba engine: fixed-horizon labels, smallest and largest price of the next period of at least one row, local extrema, binary and continuous trend labels and breakouts for every rounding, including the errors for thresholds of zero and unknown modes; saturated and percentage trend labels unless the Numba engine divides by zero (it raises ZeroDivisionError, the Rust engine returns infinity or NaN); mean and deviation of the next period in exact arithmetic, exponential ones for every rounding where the Numba engine returns. Thresholds that NumPy cannot broadcast to the prices and extrema of another shape raise ValueError with Rust. In doubles the deviation depends on the memory layout with Rust, and the rolling mean differs between the engines; a period of no rows has an infinite smallest price in row order only.", "quantifier": "all prices including NaN and infinities, all windows, waits, thresholds, modes and memory layouts, every rounding unless exact arithmetic is named", "why_tests_cant": "Tests compare the engines on one price table in one memory layout within a tolerance, without zero prices or thresholds of one.", "anchors": ["rust/src/labels.rs:24-971", "vectorbt/labels/nb.py:26-335", "vectorbt/labels/dispatch.py:22-420"]}
{"id": "C97", "title": "Indicators do not depend on the engine", "statement": "For arrays of one shape in any memory layout and lists of windows and EWM flags of one length, the Rust engine returns what the Numba engine returns for moving averages, moving deviations, Bollinger Bands, RSI, stochastic oscillator, MACD and ATR, from caching function through apply function, whatever hash function either uses as long as both have the same collisions. True range and on-balance volume agree for every rounding; the others in exact arithmetic for windows of at least one row, including the errors for parameters that were not cached, and with exponential weighting for every rounding where the Numba engine returns. Arrays of different shapes raise ValueError with Rust. Lists of different lengths raise ValueError with Rust; the Numba engine ignores flags in excess and raises IndexError when flags are missing, and its MACD pairs flags with the concatenated windows. In doubles averages with a plain window differ between the engines.", "quantifier": "all arrays including NaN and infinities, all lists of windows and flags, multipliers, hash functions with the same collisions and memory layouts; every rounding unless exact arithmetic is named", "why_tests_cant": "Tests compare the engines on one price table and a few windows within a tolerance, never lists of different lengths or arrays in another memory layout.", "anchors": ["rust/src/indicators.rs:20-660", "vectorbt/indicators/nb.py:24-309", "vectorbt/indicators/dispatch.py"]}
{"id": "C98", "title": "Reductions and statistics do not depend on the engine", "statement": "For arrays of any shape and memory layout the Rust engine returns what the Numba engine returns for setting values by masks, filling missing values, cumulative sums and products, sums, products, counts, means, medians, least and greatest values of arrays with rows, elements by position, flattening of arrays and of groups of columns, value counts of valid codes, and drawdown arrays of any lengths, for every rounding and with errors where the other engine raises errors. Standard deviations agree in exact arithmetic, also with infinite values; summaries (describe) agree in exact arithmetic for columns without infinite values and percentiles from 0 to 1. In doubles the deviation of the Rust engine depends on the memory layout and its summary has another mean since it sorts before it adds up. Of arrays without rows the Numba engine raises for the least value where Rust returns NaN, and a code of -1 counts as the last value in Numba where Rust raises ValueError.", "quantifier": "all arrays including NaN and infinities, shapes, memory layouts, masks, group lengths, codes, positions and lengths of drawdown arrays; every rounding unless exact arithmetic is named; every selection algorithm for medians", "why_tests_cant": "Tests compare the engines on one small table within a tolerance; they fix one layout per input, and never pass infinities, arrays without rows, invalid codes or large numbers.", "anchors": ["rust/src/generic.rs:397-675", "rust/src/generic.rs:854-1117", "rust/src/generic.rs:1571-1736", "rust/src/generic.rs:2112-3098", "vectorbt/generic/nb.py:86-218", "vectorbt/generic/nb.py:517-660", "vectorbt/generic/nb.py:1359-1616", "vectorbt/generic/nb.py:1921-1953"]}
{"id": "C99", "title": "Random signals keep what they promise, whatever is drawn", "statement": "Whatever the random generator returns: generating random signals sets exactly n signals in each column (or one in every row if there are fewer rows). By probability, the signals are exactly the rows whose draw is below their probability, only the first of them with pick_first; probabilities of one or more give a signal in every row, those of zero or less and NaN none. Random exits never fail, come at least wait rows after an entry and, with until_next, in front of the next one; without skip_until_exit every entry whose window has rows gets an exit in it, with until_next exactly one; exits by probability come only in rows of positive probability, certain ones on the first row of the window. Random entries and exits with n pairs that fit are exactly n entries and n exits in turn which keep entry_wait and exit_wait and lie inside of the array, also in doubles although the distances come from rounded random floats; with waits that are not both 1 the call raises ValueError exactly if n pairs do not fit or both waits are 0. With both waits 1 too many pairs do not raise: every row gets a signal, and with an odd number of rows there is one entry more than exits, unlike the documentation says. n = 0 raises with waits that are not both 1. Entries and exits by probability end without an error and are blocks in turn that keep both waits.", "quantifier": "all draws of the generator, numbers of rows up to 2^50, numbers of pairs, waits, entries, probabilities including NaN and infinities; every rounding that is at least as fine as float64", "why_tests_cant": "Tests fix a seed and compare with one recorded array; the promises are about every sequence of draws, and rounding could break the distances for rare ones.", "anchors": ["vectorbt/signals/nb.py:297-553", "vectorbt/utils/array_.py:63-84", "vectorbt/utils/array_.py:127-134"]}
{"id": "C100", "title": "Random signals of the Rust engine keep the same promises", "statement": "Given the same draws, the Rust engine returns the same random signals as the Numba engine: random entries by number and by probability, random exits by number and by probability, pairs of entries and exits (for at least one pair; with the same rows although it scales the random distances with fewer floating-point operations, and raising exactly if the Numba engine raises), and entries and exits by probability with the same errors. So every promise of C99 holds for it: exactly n signals, n pairs in turn that keep both waits and lie inside of the array if they fit, blocks in turn by probability in rows of positive probability; no range drawn from is empty and no index is negative on the way. One difference: n = 0 with waits that are not both 1 gives columns without signals where the Numba engine raises.", "quantifier": "all draws of the generator, numbers of rows up to 2^50, numbers of pairs, waits, entries, probabilities including NaN and infinities; every rounding that is at least as fine as float64", "why_tests_cant": "The engines use different generators, so tests cannot compare their outputs; they compare counts for single seeds. Equality for equal draws needs a proof.", "anchors": ["rust/src/signals.rs:67-502", "rust/src/signals.rs:1564-1600", "vectorbt/signals/nb.py:297-553"]}
{"id": "C101", "title": "Stacked, combined, repeated and tiled labels keep what tells rows apart", "statement": "Repeating an index gives row k the label of row k / n, tiling it gives row k the label of row k % len, with the names of the levels kept (except for nameless 0, 1, 2, ... that become the numbers of the new rows). Stacking indexes of the same length always succeeds: of levels with the same name and labels exactly the last (or first) is kept, levels that say nothing (nameless, and constant or 0, 1, 2, ...) are dropped unless all say nothing, and the order is kept; different lengths raise. The result tells two rows apart exactly if one of the indexes does, unless a nameless level 0, 1, 2, ... is dropped. Combining indexes always succeeds with one row per combination, in the order of the Cartesian product, and loses no combination if the levels have names. tile(n, keys) and repeat(n, keys) label every column with its key and its old label. Renaming changes only the names asked for. pick_levels returns different levels, those asked for and the others in order, or raises ValueError. Findings: nameless 0, 1, 2, ... columns lose their place in tile(n, keys); rename_levels of a plain index writes to the index of the caller, even if it raises; keep='First' is accepted and keeps the last; pick_levels does not raise for more levels than expected.", "quantifier": "all indexes with any number of levels, names and labels, all numbers of repetitions, lists of indexes, options, dictionaries, level references", "why_tests_cant": "Tests stack a few indexes with two or three levels; which levels may be dropped without losing rows depends on all combinations of names, values and options.", "anchors": ["vectorbt/base/index_fns.py:70-248", "vectorbt/base/index_fns.py:346-403", "vectorbt/base/reshape_fns.py:121-169", "vectorbt/base/accessors.py:306-358", "vectorbt/utils/checks.py:157-176"]}
{"id": "C102", "title": "Reshaping by labels keeps values with their labels", "statement": "unstack_to_array puts the different values of each level in increasing order along its axis and the value of a row in the cell of its labels; cells without a row are missing; duplicate labels raise. unstack_to_df has every label of both levels once, and every value is found under its own labels exactly if the labels of both levels come in increasing order; otherwise there are values that the frame shows under wrong labels (rows of the array are sorted, labels of the frame are in the order of their occurrence). make_symmetric has the labels of rows and columns, each once, keeps every value and fills missing ones from the transposed frame; the result is symmetric exactly if the frame holds no two different values for the same two labels. Findings: unstack_to_df (and so heatmaps) mislabels unsorted labels; levels that do not tell the rows apart lose values without an error; a frame with one row and a multi-index of columns raises; make_symmetric of a square frame need not be symmetric.", "quantifier": "all series with labels of any number of levels, all choices of levels, all values; all frames", "why_tests_cant": "All tests use labels that are sorted already, where the bug does not show; when values and labels agree is a statement about all orders.", "anchors": ["vectorbt/base/reshape_fns.py:756-947", "vectorbt/base/index_fns.py:193-200", "vectorbt/generic/accessors.py:2401-2437"]}
{"id": "C103", "title": "Broadcast objects have one shape, their own values and labels that belong to them", "statement": "broadcast brings all arguments to the least shape to which all of them can be broadcast (it exists exactly if some common shape exists, and does not depend on their order); whatever the options, each result has that shape and each of its cells is the cell of its argument under the rules of NumPy, a series being a column. With stacked labels it never fails for shapes that can be broadcast and are not empty; all results have the same index and columns, and each row and column carries, level by level, the label that each argument has for the row or column that is shown there. With strict labels all objects with labels of their own have the same ones, or it raises. With 'keep' each result has the labels of its argument. broadcast_to has the values of the first argument and the labels of the second, and works exactly if the shape fits. Findings: 'strict' accepts default labels next to other labels; frames with the same columns in another order are combined by position; with to_frame=False a series is a row; labels of empty objects may fail to stack; different names of series and the name 0 are dropped.", "quantifier": "all numbers of arguments (arrays, series, frames) of all shapes, all labels, all options modelled", "why_tests_cant": "Tests enumerate a handful of shapes and label combinations; that no combination of shapes and labels fails or shows a label at the wrong row is a statement about all.", "anchors": ["vectorbt/base/reshape_fns.py:176-753", "vectorbt/base/index_fns.py:28-41", "vectorbt/_settings.py:131-141"]}
{"id": "C104", "title": "Statistics of trades say what their names say", "statement": "For every column or group, win_rate is the number of trades with a profit over the number of trades; profit_factor is the sum of the profits over the size of the sum of the losses, infinite without losses, missing without either, and with losses above 1 exactly if the trades earn money in total; sqn is the square root of the number of trades times the mean over the standard deviation; expectancy is what a trade earns on average. stats counts the closed trades, or all with incl_open; the longest streak is the greatest number of winning (losing) trades in a row; best and worst trade are the extremes of the returns; the open PnL is the sum over the open trades. Each number depends on the trades of its column or group only. Findings: expectancy is too low by an average loss for every trade that ends even (or whose PnL is missing), so it is the average exactly if there are no such trades or no losses; the win rate of stats ignores incl_open.", "quantifier": "all lists of trade records, all groupings, any number of columns", "why_tests_cant": "Tests compare a few fixed portfolios with stored numbers, which were computed by the same code and contain no trades that end even next to losses.", "anchors": ["vectorbt/portfolio/trades.py:598-805", "vectorbt/records/mapped_array.py:753-930", "vectorbt/records/base.py:785-792"]}
{"id": "C105", "title": "Names of options mean their fields, and converting them is safe to repeat", "statement": "Options such as direction, size type or conflict modes may be given as names: a name, in any case and with any underscores, stands for the value of the field with that name, a name no field has is a KeyError, integers are left as they are, missing values become -1. Tuples, lists, series and frames are converted place by place. Converting what is already converted changes nothing. map_enum_values goes back: value to name to value and name to value to name return what they started from. No two fields of any enum of the library share a name up to case and underscores or a value, and -1 is no value. Findings: an array of objects is judged by its first value - if that is an integer, names behind it are left as strings, if it is a name, an integer behind it is a KeyError, while a list of the same values is converted; integers that are no value of the enum pass; with ignore_missing a name that is not found comes back without its case and underscores; names of a mapping that differ in case share the value of the last.", "quantifier": "all enums with distinct names and values, all scalars, nested lists, arrays and frames", "why_tests_cant": "Tests map a few names of one enum; they do not show that every spelling of every field is understood, that nothing else is, or that mixed arrays are.", "anchors": ["vectorbt/utils/mapping.py:13-198", "vectorbt/utils/enum_.py:13-28", "vectorbt/portfolio/base.py:1898-1947"]}
{"id": "C106", "title": "Statistics of drawdown records agree with the drawdown of the series", "statement": "For finite values that start above zero, max_drawdown of the drawdown records of a column is the lowest drawdown of its rows, that is of value over running maximum less one. Hence max_drawdown of returns and of their drawdown records are the same, as documented, and for a portfolio with positive values so are those of the returns and of the value, whenever there is a drawdown at all. The active drawdown is the drawdown at the last row, the active recovery the share of the fall made good, from 0 to below 1, the active durations the rows since the last peak and since the low; all are NaN exactly if the last row has the highest value. Findings: without any drawdown the returns give 0 and the records NaN, contrary to the documentation; decline and recovery durations add up to the duration for active drawdowns but to one row more for recovered ones.", "quantifier": "all finite series with a positive first value, all returns of at least -100% with the first above, all numbers of columns", "why_tests_cant": "Tests compare the two figures on one table of returns; they agree for every series only because records start at running maxima and no low row is left out of them.", "anchors": ["vectorbt/generic/drawdowns.py:288-490", "vectorbt/generic/ranges.py:265-274", "vectorbt/generic/nb.py:1729-1739", "vectorbt/returns/accessors.py:1054-1101"]}
{"id": "C107", "title": "Holding is the benchmark, and what the arguments of from_signals stand for", "statement": "Portfolio.from_holding places exactly one order per column, in the first row, for all the cash; no cash is left, and the value at every row is the benchmark value (close over first close times initial cash) divided by (1 + fees)(1 + slippage). Without costs value and total return are those of the benchmark. Entries left alone mean an entry in every row; signals together with a signal function raise; hooks that do nothing and a signal function that reads the arrays change nothing; with short signals the direction has no effect, without them it says which of the four signals the arrays stand for; stops that are NaN have no effect whether use_stops is set or resolved to False. Findings: in a group with shared cash from_holding spends all cash on the first column while the benchmark splits it; init_cash=1 and init_cash=0 as integers are modes (infinite cash, so holding raises) while 1.0 and 100 are amounts.", "quantifier": "all prices, cash, fees and slippage that allow the order; all numbers of rows and columns; all signal arrays, settings and other arguments", "why_tests_cant": "Tests run from_holding on one price series and compare numbers; equality with the benchmark, and of the array and the callback simulators behind the same arguments, is a claim about every input.", "anchors": ["vectorbt/portfolio/base.py:2718-3188", "vectorbt/_settings.py:384-427", "vectorbt/portfolio/nb.py:1916-2640", "vectorbt/portfolio/nb.py:6971-6977"]}
{"id": "C108", "title": "Statistics of signals say what their names say", "statement": "total is the number of cells with a signal, rate its share of all cells of the column or group (0 exactly without signals, 1 exactly if all are signals). total_partitions is the number of runs of signals and the number of signals that first() keeps; partition lengths add up to total; partition_rate is NaN exactly without signals, else in (0, 1], and 1 exactly if no signal follows upon another. first, nth(k) and from_nth(k) keep the signals with none, exactly k and at least k signals in front of them in their run (or in the column, with allow_gaps). Overlapping and united signals add up to those of both masks; the overlapping rate is in [0, 1] and 1 exactly for equal masks. norm_avg_index is the mean place of the signals from -1 (first row only) to 1 (last row only), changes its sign when rows are reversed, and for groups is the mean over all signals of the group. Findings: nth(-1) keeps the rows without signals rather than the last signal, and from_nth of a negative number all rows; nth_index of a group does not find the second of two signals in the same row although total counts two; with a single row the index is NaN for columns but 0 for their group.", "quantifier": "all masks, numbers of rows and columns, groupings and positions", "why_tests_cant": "Tests compare the figures of one mask with five rows; the identities between the figures hold or fail for all masks.", "anchors": ["vectorbt/signals/accessors.py:1480-1668", "vectorbt/signals/accessors.py:1740-1803", "vectorbt/signals/nb.py:1272-1318", "vectorbt/generic/accessors.py:1057-1081"]}
{"id": "C109", "title": "Sorting, filtering, combining and counting mapped arrays keeps values with their columns", "statement": "sort() of a mapped array keeps every value with its column, id and row, puts columns in order, moves nothing within a column and hence changes no reduction of a column; with incl_id the entries of a column come by id; sorting twice is sorting once. A mask keeps exactly its entries in order. top_n and bottom_n keep n entries of each column or group of the wrapper, none exceeded by one left out. Two mapped arrays combine exactly if ids and columns agree, entry by entry, and this commutes with sorting and filtering. value_counts lists each value once, with the number of entries (or share of all entries) per column or group; columns add up to their number of entries; order by value (NaN last) or by total with ties by value. Findings: top_n(n, group_by=...) keeps n per column of the wrapper, not per group asked for; sorting may change nth of a group.", "quantifier": "all mapped arrays, masks, groupings, functions and options", "why_tests_cant": "Tests sort and count one array of nine records; alignment of the parallel arrays is a statement about all.", "anchors": ["vectorbt/records/mapped_array.py:379-392", "vectorbt/records/mapped_array.py:574-663", "vectorbt/records/mapped_array.py:1012-1087", "vectorbt/records/base.py:675-705"]}
{"id": "C110", "title": "Combined and repeatedly applied results stand under their own keys", "statement": "apply_and_concat puts column j of the i-th call at place i*width+j under the i-th key (default: the number of the call) and the column's own label; combine(others, concat=True) does the same with the object combined with the i-th other. Without concat the others are combined from the left under the labels of the object; AND, OR and XOR of several masks are then all, any and parity of the cells. The compiled loops give what the Python loops give. Findings: with a list of exactly one other, concat and keys are ignored; columns without labels of their own get duplicate labels under a key; without others concat raises while plain combining returns the object.", "quantifier": "all objects, lists of others, functions, numbers of calls and keys with named levels", "why_tests_cant": "Tests concatenate two results of a small frame; placement of blocks and labels is a statement about every number of others and columns.", "anchors": ["vectorbt/base/accessors.py:526-619", "vectorbt/base/accessors.py:621-779", "vectorbt/base/combine_fns.py:50-101", "vectorbt/base/combine_fns.py:159-220", "vectorbt/signals/accessors.py:1672-1706"]}
{"id": "C111", "title": "Indexing a wrapper gives the positions and labels that pandas selects", "statement": "Indexing an object with rows and columns (iloc, loc, xs or [] without column_only_select) recovers from two frames of numbers the very positions pandas selects: reading any array at these positions under the new labels gives what pandas selects from the wrapped array. It succeeds exactly for a list of rows of a series; for a frame, for non-empty lists on both axes or one position on one axis and at least two different ones on the other; a single row only if columns are not grouped. Each new column keeps the group of the column it was read from. Findings: a frame with one row has no column that can be selected; an empty selection of rows raises on a frame and works on a series.", "quantifier": "all labels, shapes, groups, cells and selections of positions on the axes", "why_tests_cant": "Tests index a frame of three by three; that the numbers always identify the positions, also with duplicates and reorderings, is a statement about all selections.", "anchors": ["vectorbt/base/array_wrapper.py:151-351", "vectorbt/base/index_fns.py:28-41"]}
{"id": "C112", "title": "A report of statistics has exactly the metrics that were asked for", "statement": "stats() keeps every requested metric in order, under its own name if requested once and otherwise under its name and the number of earlier requests. The report has the rows of exactly those metrics for which a tag (or boolean expression over tags) matches and every check_ and inv_check_ filter gives what is wanted, in order; it is None if there are none. A scalar is shown as it is; a series is reduced to the chosen column, else by the metric's own aggregation or the common one, left out if the metric turns aggregation off while it is on, and kept whole if aggregation is off. Unknown metrics, unmatched keys of metric_settings and missing filters raise. Findings: requesting a, a and a_0 loses a metric silently; a metric requested twice leaves one row under its title with the last value.", "quantifier": "all requested metrics, tags, filters, settings keys, outputs and aggregation functions", "why_tests_cant": "Tests request a handful of metrics of one object; which metrics appear for any combination of names, tags, filters and outputs is a statement about all.", "anchors": ["vectorbt/generic/stats_builder.py:87-577", "vectorbt/utils/tags.py:12-56"]}
{"id": "C113", "title": "Resolving attributes for metrics with a shared cache gives what resolving them anew gives", "statement": "resolve_attr looks up get_x if the class has it and otherwise what pre_resolve_attr names; a method gets the settings it has arguments for and the explicit arguments, which win. In a report with common settings, whatever the metrics' own settings and in any order, every attribute resolves to what it would resolve to without the cache, provided metrics pass no explicit arguments and the hook of the class picks the same attribute as for the common settings. Findings: once an attribute is cached, explicit arguments are ignored; a hook has no effect on an attribute with a get_ method, so the trades_type setting of Portfolio.stats does not change the trades that metrics are computed from; a metric that sets use_asset_returns itself gets the plain returns if an earlier metric resolved returns.", "quantifier": "all objects (methods, properties, hooks), caches, settings, sequences of calls", "why_tests_cant": "The result of a call depends on every earlier call of the report; the tests of trades_type use data for which the three kinds of trades have the same number of records.", "anchors": ["vectorbt/utils/attr_.py:131-194", "vectorbt/portfolio/base.py:4792-4825", "vectorbt/portfolio/base.py:4277-4283", "vectorbt/utils/config.py:51-58"]}
{"id": "C114", "title": "Wrapping an array keeps its numbers and gives them the labels of the wrapper", "statement": "ArrayWrapper.wrap accepts one- and two-dimensional arrays with one row per label of the index and one column per label of the columns (a wrapper of a Series takes any single column); the result has the numbers of the array with missing ones filled, the labels asked for or else those of the wrapper or its groups, and is a Series for one column of a Series or of a single group. Wrapping the values of a Series or DataFrame gives it back. wrap_reduced gives a number for a Series, a Series labelled by columns for one number per column, and a Series or DataFrame for arrays per column. With to_index positions become labels of rows and, in reductions, missing positions NaN. fill gives an object filled with the value. Findings: a Series named 0 loses its name; fillna changes the caller's array; wrap with to_index raises for NaN and reads positions below -1 from the end; fill_reduced raises unless there is exactly one row and one column.", "quantifier": "all wrappers, groupings, labels, arrays, fill values", "why_tests_cant": "Tests wrap a few small arrays; fill_reduced has no test, and tests look at results, not at the array passed in.", "anchors": ["vectorbt/base/array_wrapper.py:535-719", "vectorbt/base/array_wrapper.py:357-367", "vectorbt/base/reshape_fns.py:52-66"]}
{"id": "C115", "title": "A date-like argument stands for one instant", "statement": "to_tzaware_datetime reads floats as seconds since 1970, integers as seconds or, by their number of characters, as finer units, and gives naive datetimes the naive time zone; conversion with tz never changes the instant, and only unparsed strings and nanosecond np.datetime64 raise. datetime_to_ms truncates towards 1970 and gives milliseconds back; interval_to_ms understands exactly an integer followed by m, h, d or w. Findings: milliseconds, microseconds and nanoseconds are read right exactly when their seconds have ten digits (2001-09-09 to 2286-11-20), and before 1970 exactly when they have nine, for the sign counts as a digit; seconds before 1938-04-24 are divided by ten; np.datetime64 loses its time of day; with the default settings an aware datetime takes the offset its zone has at the time of the call and moves when that is not its own.", "quantifier": "all integers, floats, datetimes, zones, settings, intervals", "why_tests_cant": "Tests use a few recent timestamps and fixed offsets; the size of the integer and the date of the call decide which instant is meant.", "anchors": ["vectorbt/utils/datetime_.py:74-175", "vectorbt/_settings.py:143"]}
{"id": "C116", "title": "The column argument names one column or group", "statement": "select_one and select_one_from_obj give the object itself without column if it has one unit (group if grouped, column otherwise) and raise otherwise. With column, given several units, they select the only unit with that label or, if no unit has it and column is an integer, the unit at that position from the start or the end; both select the same unit, from the object and from a result with one entry per unit. Findings: an object with one row has no column that select_one can select; positions raise if column_only_select is switched on in the settings instead of for the object; select_one_from_obj gives all units with a repeated label where select_one raises; with several columns in a single group select_one raises, but select_one_from_obj takes column for the position of a row and returns a single value.", "quantifier": "all labels, groupings, settings, results", "why_tests_cant": "Tests select a column or two from small frames; labels that are integers, repeated labels and single groups with a column argument are not tried.", "anchors": ["vectorbt/base/array_wrapper.py:797-869", "vectorbt/base/array_wrapper.py:186-262", "vectorbt/generic/stats_builder.py:551-557"]}
{"id": "C117", "title": "ScheduleManager.every understands an interval, a unit, a weekday and a time in this order", "statement": "every accepts exactly the lists of arguments made of an optional interval, unit, weekday and time in this order and raises ValueError otherwise. Without a time the job fails only for a singular unit or a weekday with an interval other than one; its unit is weeks with a weekday, else the one given, else seconds. A time without unit and weekday means days. A datetime.time is accepted exactly if it has no microseconds and the unit is days, hours or minutes or a weekday is given, and the job runs at its hour, minute and second, at its minute and second, or at its second; for days and weekdays a time with a zone is converted to local time. Findings: for hours and minutes a time with a zone raises, as does any time with microseconds; a timedelta raises with a singular unit or a weekday.", "quantifier": "all lists of arguments, all times", "why_tests_cant": "Tests try a dozen combinations without zones for hours and minutes.", "anchors": ["vectorbt/utils/schedule_.py:64-237"]}
{"id": "C118", "title": "Equality of configs and configured objects compares what the first one has", "statement": "is_deep_equal(a, b), on which == of Config and of configured objects (portfolios, indicators, records) rests, holds exactly if wherever a has a value in nested lists, tuples and dictionaries, b has one of the same kind that compares equal; it is reflexive if the leaves are. Both orders hold exactly if both have values at the same places and these agree. Configured objects are equal exactly if type and writeable attributes are the same and attributes and config are met in this sense. Findings: equality is not symmetric: a list equals every longer list that begins with it and a config every config with more keys, but not the other way round; check_exact is not passed on, so lists and dictionaries of arrays that are only close count as exactly equal.", "quantifier": "all nested values, all comparisons of leaves", "why_tests_cant": "Tests compare a few equal and unequal objects of the same shape; a missing key or element on one side is not tried in both orders.", "anchors": ["vectorbt/utils/checks.py:286-350", "vectorbt/utils/config.py:689-690", "vectorbt/utils/config.py:813-822"]}
{"id": "C119", "title": "Markers of the plot of profits and losses are scaled in proportion and drawn at most once", "statement": "In Trades.plot_pnl the size of a marker is the lower end of the range times the ratio of the trade's absolute return to the least one, its opacity the upper end times the ratio to the greatest one, as long as the range is wide enough for the ratio of greatest to least; otherwise both are spread evenly over the range. Both stay in the range and keep the order of the returns. A trade is drawn in at most one of the three series; closed trades by the sign of the profit, open ones as open. Findings: trades whose profit is exactly zero, and closed trades whose profit is missing, are not drawn at all; a range that begins at zero raises ZeroDivisionError as soon as two returns differ.", "quantifier": "all lists of returns, all ranges, all trades", "why_tests_cant": "Plots are tested on one example with default ranges; neither the branch for narrow ranges nor ranges that begin at zero are tried.", "anchors": ["vectorbt/utils/array_.py:76-125", "vectorbt/portfolio/trades.py:909-977"]}
{"id": "C120", "title": "Times of day are moved between time zones without changing the moment", "statement": "convert_tzaware_time, tzaware_to_naive_time, naive_to_tzaware_time and convert_naive_time return the one time of day that a clock in the new zone shows at the moment of the given time, where a time without zone and a zone not given are local; a conversion through another zone is the direct one, and a time made aware and naive again, or naive and aware again, is unchanged. Findings: naive_to_tzaware_time without a zone returns a naive time; as the day is lost, between any two zones that show different times some two times exchange their order.", "quantifier": "all times of day, all offsets, all machines", "why_tests_cant": "Tests convert one time between two zones on the machine they run on; times around midnight and all pairs of offsets are not tried.", "anchors": ["vectorbt/utils/datetime_.py:38-63"]}
{"id": "C121", "title": "A chain of attributes is followed step by step", "statement": "deep_getattr, which finds the function that a metric or subplot names by a path, follows the steps of a string with dots, of a call tuple or of nested lists, tuples and dictionaries of these in order: every name before the last step is called if it can be, calls get their arguments, call_last_attr decides on a name at the end only, and an error ends the chain. The names of a string are the unique ones without dots that join to it, and a string equals the list of its names. Findings: in a tuple of one string the dots are not split, so ('a.b',) asks for an attribute named 'a.b'; a name followed by a call tuple is a chain in a list but one call in a tuple, where the second call is taken for the arguments.", "quantifier": "all nested chains without empty parts, all objects, all getattr functions", "why_tests_cant": "Tests try a handful of chains; nesting, the position of the last call and the ambiguity of tuples have no bound.", "anchors": ["vectorbt/utils/attr_.py:44-90"]}
{"id": "C122", "title": "Downloads page by page are complete, ordered and end", "statement": "BinanceData.download_symbol and CCXTData.download_symbol, asking an exchange for pages of at least two candles, put together exactly the candles from the start to before the end, each once and in order, wherever the first candle is found. Whatever an exchange answers, the loop ends; if its answers have increasing times the result has too, without a candle twice. _retry returns the first value, raises the first other error or the last one after all tries. Findings: with limit=1 only the first candle is ever downloaded; with an exchange that answers by a window of time, a gap as wide as the window ends the download without an error and everything after it is missing; with retries=0 nothing is tried and None is returned.", "quantifier": "all histories, starts, ends, limits, exchanges, numbers of tries", "why_tests_cant": "Tests cannot reach exchanges, and mocks answer a fixed page; the number of pages, gaps and answers that change from call to call have no bound.", "anchors": ["vectorbt/data/custom.py:471-509", "vectorbt/data/custom.py:683-734"]}
{"id": "C123", "title": "Generated prices are products of the factors of their steps, and updates continue them", "statement": "GBMData gives one price per draw: the initial price times the factors of the steps so far, each of length T divided by the number of rows, or one without T; from a positive price with positive factors all prices are positive. Updating prices generated without T gives what one download with the draws of both, but for the replaced last one, would have given. Findings: prices generated with T are continued with steps of length one instead of T divided by the number of rows; data of one row cannot be updated, it raises IndexError.", "quantifier": "all draws, initial prices, periods, factor functions", "why_tests_cant": "Tests compare a few generated values for one seed; updates draw without a seed and are not compared with a single download.", "anchors": ["vectorbt/data/custom.py:73-94", "vectorbt/data/custom.py:133-180"]}
{"id": "C124", "title": "Symmetric thresholds lead back and prefer no direction", "statement": "get_symmetric_pos_th_nb(n) is the only rise that makes up for a fall by n, get_symmetric_neg_th_nb(p) the only fall that undoes a rise by p, and the two undo each other. With positive thresholds and their symmetric negative ones, the local extrema of the reciprocals of positive prices are those of the prices with peaks and troughs exchanged.", "quantifier": "all positive price series, thresholds per row, lengths", "why_tests_cant": "Neither function is called in a test with local extrema; the exchange of peaks and troughs is a statement about all series.", "anchors": ["vectorbt/labels/nb.py:86-161"]}
{"id": "C125", "title": "Which generator of random signals runs", "statement": "Portfolio.from_random_signals generates signals by their number exactly if n is given and no probability is, and by probabilities exactly if n is not given and there is one for entries and one for exits, where prob stands for each that is not given; a seed not given is that of the settings. A number with any probability, and a missing probability without a number, are refused with different errors.", "quantifier": "all combinations of arguments", "why_tests_cant": "Tests try a few combinations; the statement is about all of them, in both directions.", "anchors": ["vectorbt/portfolio/base.py:3260-3296"]}
