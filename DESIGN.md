# Formal model of vectorbt in Lean 4

The code under /repo is read as text and modelled by hand, function by function, as total computable
Lean functions.  Every definition cites the file and lines it models.  Nothing of the project is run.

## Layout

* `lean/Verif/Model/*`  – the model (executable definitions only, each with a source citation).
* `lean/Verif/Spec/*`   – small specifications that do not use the model's helpers.
* `lean/Verif/Lemmas/*` – helper lemmas.
* `lean/Verif/Props/*`  – the property theorems, one file per property, with `example`s which show that a
  concrete non-trivial case meets the hypotheses.
* `properties.jsonl`, `MANIFEST.json` – the property list and the theorem names for each.
* `AXIOMS.md` – the axioms of every theorem named in the manifest.
* `seeded/LOG.jsonl` – wrong models tried, and the theorems that rejected them.

## Trusted base

* Lean's kernel (4.33.0) and Mathlib's definitions of `ℚ`, `List` functions, order and `Int.log`.
* The axioms `propext`, `Classical.choice` and `Quot.sound`; no theorem depends on any other (`AXIOMS.md`).
  There are no axioms of our own, no `sorry`, no `native_decide`, no `bv_decide`.  `decide +kernel` is used for
  concrete witnesses and finite tables; it is checked by the kernel.
* The translation from Python to Lean by hand.  It is the part nobody checks mechanically.  To make it
  checkable by reading, model functions follow the source branch by branch and cite lines; the mutation log
  shows which deviations of the model the theorems would notice.
* The models of NumPy, pandas and Python functions listed below under "Library functions".

## How numbers are modelled

`F` is `nan | ninf | fin q | pinf` with `q : ℚ`.  Special values follow IEEE 754 (NaN compares false,
`inf - inf = nan`, `0 * inf = nan`, ...).  Signed zeros are not distinguished (no modelled function
observes the sign of a zero other than through division by zero, which is modelled as the
`ZeroDivisionError` that numba raises in scalar code, or as inf/nan for array code).

All arithmetic goes through a record `A : Arith` holding

* `rnd : ℚ → F`, the rounding of an exact result to a float (this is where overflow to infinity lives), and
* `rel`, `abs : ℚ`, the two tolerances of `utils/math_.py` (1e-9 and 1e-12 in the code).

There are four kinds of theorems by arithmetic; each states its own.

1. For every `A`: decision logic, record structure, look-ahead, independence of groups, refinement.  They hold
   for float64 as far as each operation rounds the exact result, and do not even need that much.
2. For every `A` with `Arith.Sound` (rounding is monotone, symmetric, idempotent, exact on integers up to
   2^53): bounds of oscillators.  `Arith.double` is IEEE binary64 with round-half-even, gradual underflow and
   overflow, and `double_sound` proves it `Sound`.
3. For `Arith.exact rel abs` (`rnd = fin`) with arbitrary tolerances: exact rational arithmetic with the
   code's snapping to zero.
4. For `Arith.exact 0 0`: identities that the snapping itself falsifies.  Where this is so, a counterexample
   with the tolerances of the code stands beside the theorem and the theorem is called `_partial`.

Rounding errors are outside of 3 and 4.

## Conventions

* Exceptions are values: functions that can raise return `Except Err α` (`ValueError`, `IndexError`, `KeyError`,
  `TypeError`, `ZeroDivisionError`, `RejectedOrderError`).  State changed before an exception is lost to the
  caller of a simulator; where it is visible (`Config.update`) the model returns state and exception.
* Uninitialised arrays (`np.empty`) have arbitrary content `junk`; theorems quantify over it.
* Arrays written in place are functions `Nat → α` updated by `setAt`.  Two-dimensional arrays are functions of
  row and column.  Negative indexes (NumPy's wrap-around) are modelled where the code can produce them.
* Randomness: a drawn number is an input.  In the simulators every call has its own draw.  The real stream is
  shared, so a changed order in one group shifts the draws of the following groups; C15 and C16 are about equal
  draws per call.
* Flexible indexing is resolved in the simulators' inputs; C48 proves that this loses nothing.
* `call_seq`, windows, waits and row numbers are natural numbers where the code assumes non-negative ones.
* Functions of one column are modelled for one column when the code's outer loop only repeats them.
* Callbacks are functions that may read all state, change the arrays they are given in place and keep memory of
  any type.  They do not write to the record arrays.
* The theorems C01-C82 are about the Numba engine.  The Rust engine is modelled from its own text in the namespace `Vbt.Rs` where
  C83 and later say so; nothing else of it is.  Rust's `f64::min`/`max`/`signum`/`floor` have their own definitions, a sign of
  zero that Rust can see is an argument, and the capacity of a `Vec` is the one it is created with.

## Library functions modelled

`np.sum` (left fold), `np.min`/`np.max` (NaN wins), `np.cumsum`, `np.nancumsum`, `np.partition` (k-th of the sorted
array), `np.unique(axis=0)` (sorted distinct rows), `np.arange`, `np.linspace` (exact), `np.round` (half to even),
`np.argsort` by insertion as in the code, `pd.factorize`, `pd.Index.union`/`intersection` (distinct labels),
`reindex`, `duplicated`, `itertools.product`, `zip`, `functools.lru_cache`, `inspect.getmro` (as a list), dictionaries
(insertion-ordered), sets (insertion order stands for iteration order), `string.Template.substitute`, `eval` and
`hash` (parameters).  Square roots are a parameter.

## What is modelled

| source | modelled | not modelled |
|--------|----------|--------------|
| `utils/math_.py` | all comparisons and `add_nb` | |
| `portfolio/nb.py` | order execution (buy, sell, execute, process, fill log/order), `approx_order_value_nb`, call sequences and sorting, `simulate_from_orders_nb`, `simulate_from_signals_nb`, `simulate_from_signal_func_nb`, stop and signal resolution, `simulate_nb`, `simulate_row_wise_nb`, `flex_simulate_nb`, `flex_simulate_row_wise_nb` (with a bound on the number of calls of a segment), trades, positions, streaks, running position records, assets, cash, value, returns, exposure reconstruction | contexts passed to callbacks beyond the fields listed in `Model/Callback` |
| `generic/drawdowns.py`, `generic/ranges.py` | maximum and active statistics, `duration`, `coverage` with groups | plots, `stats`, means and medians (C67 in general) |
| `signals/accessors.py` | totals, rates, selection by rank, index statistics, with groups | plots, distances in `stats`, mapped arrays of ranks |
| `generic/stats_builder.py`, `utils/tags.py` | selection, filters, aggregation and titles of metrics | templates, `calc_func` resolution beyond C113, wrapping |
| `utils/attr_.py` | `resolve_attr`, `deep_getattr` | `get_dict_attr` |
| `base/array_wrapper.py` | grouping (C87), selection (C86, C111, C116), wrapping and filling | frequency and time deltas |
| `base/combine_fns.py` | concatenating and combining loops | Ray |
| `records/mapped_array.py` | sorting, filtering, combination, value counts | plots, `stats`, `to_pd` beyond C47 |
| `utils/datetime_.py` | `to_tzaware_datetime`, `datetime_to_ms`, `interval_to_ms`, conversions of times of day | parsing of strings, frequencies |
| `utils/checks.py` | `is_deep_equal` | type checks and assertions |
| `utils/array_.py` | all functions | |
| `utils/schedule_.py` | `ScheduleManager.every` | running jobs |
| `utils/mapping.py`, `utils/enum_.py` | `reverse_mapping`, `to_mapping` (named tuples), `apply_mapping`, `map_enum_fields`, `map_enum_values` | sets, `to_mapping` of other objects |
| `portfolio/trades.py` | win rate, profit factor, expectancy, SQN, streaks and extremes of `stats`, sizes, opacities and series of `plot_pnl` | fields, other plots, durations |
| `portfolio/base.py` | assets, masks, coverage, automatic initial cash, asset value, exposure, arguments of `from_signals`, `from_holding` and `from_random_signals` | construction from pandas, indexing, statistics, plots |
| `generic/nb.py` | shifts, fills, diff, rolling/expanding/ewm min, max, mean, std, crossings, drawdowns, ranges, applying and reducing with user functions, flattening, value counts, masks, medians, `describe`, drawdown arrays | reductions of records in parallel mode |
| `signals/nb.py` | cleaning, generation with choice functions, stop choices, random choices for arbitrary draws, ranks, ranges between signals | the random generator and the distributions of its draws |
| `records/nb.py` | column map, selection, masks, expansion, reducers | array-valued reducers |
| `returns/nb.py` | all 1-dim functions: returns, cumulative and final returns, drawdown, annualised return and volatility, Calmar, omega, Sharpe, downside risk, Sortino, information ratio, beta, alpha, tail ratio, value at risk, capture; rolling and per-column versions | square root and power (parameters), quantiles of arrays with infinities |
| `labels/nb.py`, `indicators/nb.py` | all functions, the labels also over columns | |
| `base/` | flexible indexing, grouping, index alignment, stacking, combining, renaming and picking of levels, `tile` and `repeat`, `unstack_to_array`, `unstack_to_df`, `make_symmetric`, `broadcast` and its variants | other accessors |
| `indicators/factory.py`, `base/combine_fns.py` | parameter and in-place output preparation, calls, raw outputs, column labels, `from_apply_func`, `run`, `run_combs`, `apply_and_concat_*` | code generation, TA-Lib and other wrappers, caching, Ray |
| `generic/splitters.py` | all splitters with positions | label arguments |
| `utils/` | config merging, `Config` methods, templates, parameter products and trees of operations, caching | threads and locks, pickling |
| `data/custom.py` | page loops and tries of `BinanceData` and `CCXTData`, `GBMData` | conversion into frames, `YFData`, `AlpacaData`, date ranges |
| `data/base.py` | alignment and `update` | downloads, time zones, frequencies |
| `rust/src/portfolio.rs` | order execution, `simulate_from_orders`, `simulate_from_signals`, call sequences, trades, positions, streaks, reconstruction of assets, cash and value | statistics of a portfolio |
| `rust/src/generic.rs` | shifts, fills, differences, rolling/expanding/ewm functions, ranges, drawdowns, positions of extremes, masks, reductions, `describe`, flattening, value counts, drawdown arrays | copying between Python and Rust, shape checks |
| `rust/src/signals.rs` | everything, the random functions for one column with the draws as arguments | the random generator `make_rng`, conversions from Python (but for `generate_stop_ex_rs` and the check of the waits in `generate_rand_enex_by_prob_rs`) |
| `rust/src/returns.rs` | everything but the conversions from Python | conversions from Python |
| `rust/src/records.rs` | column ranges and maps, selections of positions and records, sorting checks, expansion, stacking, value counts, masks | conversions from Python, `record_col_offset` |
| `rust/src/labels.rs` | all kernels and exported functions | conversions from Python |
| `rust/src/indicators.rs` | all kernels and exported functions | conversions from Python; the values of `hash()` are parameters |
| `vectorbt/_engine.py` | everything but `array_shape_compatible_with_rust`, `scalar_…`, `unit_interval_…` and the two `broadcast_…_to_shape` | warnings |

Simplifications local to one definition are said in its comment.

## Properties

"Findings" are inputs for which the English claim is false of the code.  Each has a theorem with a concrete
witness (`..._counterexample...`), and the theorem excluding them is called `_partial`.

| id | modelled | how proved | findings and restrictions |
|----|----------|------------|---------------------------|
| C01 | order execution | case analysis of branches, induction over orders, 3 | fees below -100 % with a fixed fee and granularity leave cash at -10; a `Percent` order of size 0 with direction Both fills NaN |
| C02 | same | case analysis, 3; plain equations 4 | finite fill sizes |
| C03 | same | every unfilled result returns the pre-filled state, 1 | |
| C04 | same | case analysis, induction, 3 | LongOnly with a `Percent` size beyond 100 % gets short |
| C05 | same | case analysis, 1 and 3 | |
| C06 | same | case analysis, 3 | a cash-limited granular buy can fill size 0 and pay the fixed fee |
| C07 | same | invariant by induction, 4 and with snaps 3 | slippage above 100 % makes the price and the debt negative |
| C08 | same | case analysis, 3 | a fixed fee while covering part of a short with no free cash makes free cash negative; dividing by zero when the price with fees is twice the average entry |
| C09 | conversion of size types | refinement to a one-line target | |
| C10 | `update_value_nb`, group value | algebra | |
| C11 | checks of `execute_order_nb` | iff with an independent predicate, 1 | |
| C12 | rejection | case analysis, 1 | |
| C13, C14 | `simulate_from_orders_nb`, `simulate_from_signals_nb` | invariants over the schedule, 1 | call sequences are permutations per group |
| C15, C16 | same | relational invariant between two runs, 1 | draws per call are inputs |
| C17 | same | invariant, 3 and 4 | same exclusions as C01, C07 |
| C18 | asset and cash reconstruction | induction over a column's records and over the run | the snapping differs from the simulation's (counterexample); exact when movements are visible, otherwise within `lost` (1e-9 of the volume, 1e-12 per addition) |
| C19 | total profit | induction, 4 | zero for a column without orders even if the close is NaN; with tolerances only within `lost` (counterexample) |
| C20, C21, C22 | entry and exit trades, positions | induction with running sums | tolerance counterexamples; in the entry view all trades of an open position are open |
| C23 | streaks | induction | |
| C24, C25 | call sequences | permutation, sortedness, stability | NaN values go last, in reversed order |
| C26 | signal conflicts | decision tables | a long entry and a short exit pass together; NaN position with direction Both |
| C27 | signals to orders | decision tables | a tiny negative size within the tolerance passes; a reversal by value divides by the raw valuation price |
| C28 | both signal simulators | equality of loops, 1 | |
| C29, C30, C75 | stops | characterisation, monotone reference, refinement to a stop rule | stop loss is checked first; a hit stop overrides the bar's signals |
| C31 – C35 | signal functions | induction over arrays, characterisations | with `skip_until_exit` or without pick-first the last returned index counts as the exit: unsorted answers break the window, coincide or never end (C32, C33) |
| C36, C37 | shifts, fills | cell by cell | |
| C38, C66 | rolling functions | scan refines window definition, 1 (min, max), 3 (mean, std) | an infinity spoils later means; `minp=0` with an empty window raises |
| C39 | all scans | relational invariant, 1 | |
| C40, C41 | drawdowns, ranges | scan refines run definition | the active drawdown is dropped when the last value is NaN; coverage NaN without records; of a group at most one over its columns (`C41_groups_bound`) |
| C42 | crossings | characterisation | a second crossing needs no new strict "below" after the first |
| C43, C44 | returns | induction | negative start values reverse the sign; returns below -100 % give positive drawdowns; the first row's loss does not count |
| C45 – C47, C67 | records | counting sort, partition, refinement | |
| C48 | flexible indexing | equality with NumPy broadcasting spec, 1 | |
| C49 | groups | induction | missing labels in front are counted into the first group |
| C50 | splitters | list arithmetic | negative and fractional lengths above 1 are accepted and break the partition |
| C51, C52 | configs | structural induction, histories, heap model | `same_keys` ignored with an empty first dict and inside children; merging not associative; `setdefault` and `\|=` bypass the flags; nested update changes plain children of read-only configs; reset shares grandchildren by default; with nested copies, resets restore the creation or last checkpoint through any history of updates |
| C53 | params, `create_param_combs` | induction | a product with an empty list has no lists at all; without a combination `create_param_combs` gives no lists at all (`C53_no_combination`) |
| C54 | cash and value series | induction, 4 | inside a row a column can be counted twice; with tolerances within `lost` |
| C55 | running position records | induction over orders, 3 | an open record has exit row -1 and averages actual exits only |
| C56 | `try_order_nb` | case analysis, 1 | its own draw when `reject_prob` is positive |
| C57 | row-wise simulator | loop interchange for own-group callbacks, 1 | a counter shared by groups differs |
| C58 | callback simulator | simulation relation, 1 | `last_val_price` is overwritten by the close at the end of a row |
| C76 | all four callback simulators | callbacks that write down their calls, induction over the loops, 1 | a flexible segment that never returns -1 does not end |
| C77 | flexible simulators | equality with `simulate_nb`, induction over the slots, 1 | an order function that writes to the balances is read at different moments |
| C78 | all four callback simulators | invariant of all states seen by callbacks (`Seen`: callbacks that raise when it fails change nothing), 4 | needs callbacks that do not write to the balance; as C01 for negative cash |
| C79 | all four callback simulators | the same, and segments as lists of appended records, 1 | with a flexible order function a column can have several records in a row |
| C80 | `run_pipeline`, `from_apply_func`, concatenation in both loops, `build_columns`, checks of the constructor, `run`, `run_combs` | columns as a flat concatenation of equal widths (`sideBySide`), cell by cell; buffers filled turn by turn equal the concatenation (`applyConcatNb_eq`); unique runs read back by position of first occurrence (`useRaw_ok`); 1 | columns are opaque, inputs already broadcast and two-dimensional, parameters already lists; seeds, caching, `keep_pd` and redundant levels are left out; partly provided in-place outputs, all levels hidden, and two `per_column` cases fail (theorems) |
| C81 | apply and reduce functions | loops as closed forms of the arrays they fill, 1; sums 2 | `rolling_matrix_apply_nb` counts the missing values of the current row over all columns; `argmin` of [nan, inf] is the position of the NaN; `any_squeeze_nb` takes NaN for true |
| C82 | risk ratios of returns/nb.py | statistics of lists, sorted permutations, 2 | Sharpe is inf for a steady loss, information ratio inf for the benchmark, omega inf for a flat series, Calmar NaN for a rising series (its `inf` branch and that of beta are never taken); conditional value at risk counts NaN rows |
| C83 | order execution of rust/src/portfolio.rs against portfolio/nb.py | refinement, 2 (granularity and locked shorts: 3) | zero `Percent` orders, divisions by zero, granularity in binary64 and NaN minima differ; witnesses given |
| C84 | `simulate_from_orders` of rust/src/portfolio.rs and `FlexArray` against `simulate_from_orders_nb` | simulation relation over groups, rows and calls, 2 (granularity, locked cash: 3) | the same exclusions as C83 stated cell by cell; sorting of short `Percent` orders without a valuation price differs, witness given; the write-back of the sorted `call_seq` is not modelled |
| C85 | `simulate_from_signals` of rust/src/portfolio.rs (both paths, signal rules, stops) against `simulate_from_signals_nb` | simulation relation over groups, rows, cells and calls; the stop variables of the single-column path are a projection of the stops of the general one, 2 (granularity, locked cash: 3) | runs in which Numba divides by zero; percentage sizes with sorted calls; the class of five errors differs, witness given; the initial indices and prices of stops that Rust drops on the single-column path are not observable |
| C86 | `ArrayWrapper.indexing_func_meta` (columns only), `get_ranges_arr`, `Records.get_by_col_idxs`, `Portfolio.indexing_func`, and the methods from asset flow to total return as whole functions over all columns or groups | `get_ranges_arr` proved to list the ranges (cumulative sums); results of a selection as a relation `ReadAt` carried through every method | the rows are not selected; pandas gives the positions and new labels; three or more groups, `AutoAlign` and columns of groups that share cash: false, proved (`C86_three_groups` for every such selection, witnesses for the others) |
| C87 | `ColumnGrouper` (restrictions, `is_grouping_*`, `check_group_by`, `resolve_group_by`), `ArrayWrapper.regroup`, `resolve`, `wrap_reduced` of one-dimensional arrays, `Portfolio.wrapper`, `Portfolio.regroup` | equal codes of `factorize` proved to be the same partition by induction over the columns; decision logic over the kinds of `group_by` | levels of columns are passed as labels, caching left out; `is_group_count_changed` compares numbers of columns, so a `pd.Index` keeps stale dimensions (`C87_stale`, `C87_stale_joined` for every such change) |
| C88 | rust/src/generic.rs: shifting, filling, rolling, exponential and expanding functions and crossover, both the loops for columns and those over cells in row-major order, against the functions of `Model/Generic` applied per column | the row-major loops proved to be the loops of the columns; then lockstep of the two states (`scanRows_rel`, `scanRowsE_rel`); the counts of the Rust engine proved to be the values present, so that they never underflow | copying between Python and Rust, shape checks of two arrays, and `diff`/`pct_change` with n = 0 (Numba subtracts an empty slice) left out; `rolling_mean` and `expanding_std` agree only in exact arithmetic (witnesses with doubles), and some errors of Numba are values of Rust (witnesses) |
| C89 | rust/src/generic.rs: `find_ranges` and `get_drawdowns` with the separate loops for the two memory layouts and the shared record counter, `range_duration`, `range_coverage`, `ranges_to_mask` with their bounds checks, `argmin_reduce_1d`, `argmax_reduce_1d`; `argmin_reduce_nb`, `argmax_reduce_nb` | lockstep of each loop with the Numba loop up to the last row, which the standard layout treats after the loop (ranges) or without reset (drawdowns; a started drawdown never has a NaN peak); coverage cell by cell with an exact condition for the division by zero; extremes by the first best value of a prefix | negative lengths, which Rust rejects, are not modelled; `np.argmin` of an array without NaN is taken as the first position of the smallest value |
| C90 | rust/src/portfolio.rs: `get_entry_trades`, `get_exit_trades`, `get_positions` with `aggregate_position`, the streaks; the Numba functions as in C21 and C22 | lockstep of the loops, the Rust variables being a projection of the Numba ones; the sums over a slice against the running sums of the Rust engine for trades listed by column, which an invariant of the loops shows all trades to be; no division by zero without rounding by an invariant on the sizes of a position (the size left after a reversal exceeds the tolerance) | a double whose product underflows makes Numba raise and Rust return infinity (`C90_differs`); trades not listed by column give other positions (`C90_positions_differs`); the texts of the errors differ |
| C91 | rust/src/portfolio.rs: the functions after a simulation (flows, assets, cash, sums over groups, initial cash, order of simulation, total profit, returns, benchmark, exposure) on row-major buffers; the Numba functions as in C54, with their check of the group lengths | lockstep of the loops over records, with the other columns of the buffer as a frame; a loop over columns each of which changes only its own part; loops over groups against the layout; agreement in the set of cells written, from arbitrary contents | the Rust engine does not check group lengths (`C91_lengths_differ`); NaN as initial cash of a group (`C91_init_cash_differs`); the benchmark is rounded differently (`C91_benchmark_differs`); the column map has the columns of the target shape; reads other than those of `sum_grouped` are not checked for bounds |
| C92 | rust/src/signals.rs: cleaning, stop and OHLC stop generators, ranges, ranks, indices; of signals/nb.py the generators with stops for all columns, with choice functions that raise and write arrays, `nth_index_nb`, `norm_avg_index_nb` | lockstep of the loops column by column, a column being fresh when its turn comes; the search for the next entry against the list of entries; positions in lists against what is left of the lists; a decreasing measure for the turns; exact sums of integers under `Arith.Sound` | waits are natural numbers; random functions are in C100; checks of shapes not modelled; the average index is stated for sums of rows up to 2^53 (about 134 million rows of signals) |
| C93 | vectorbt/_engine.py (availability, support, preparation of arrays, resolution), the shape of a dispatch function, `generate_stop_ex` of signals/dispatch.py with the argument extraction of `generate_stop_ex_rs` | decision tables; induction over events for the cached answer; the sets of numbers of the dtypes (`DType.Stores`) against NumPy's table of safe casts, with rounding of IEEE doubles; the whole call by C84 (reading of arrays) and C92 (kernels); witnesses for the four differences | what Numba does with a negative wait is left open; warnings not modelled; the other dispatch functions have the same shape but are not modelled one by one; dtypes other than booleans, integers and floats are one case |
| C94 | rust/src/returns.rs: every kernel, the row-wise loops and the exported functions; the Numba functions are those of C82 | the row-wise loop equals the fold over a column (`chunkFold_ok`, `twoPass_get`); the sums, counts and products of both engines by induction over the column, with `Sound` rounding where a factor 1 or -1 is applied; 100 grows with 1 (`grow_hundred`); quantiles by the broken line of C82; windows by C82 | square roots and powers are parameters; the numbers of value at risk and tail ratio need columns without infinities; `select_nth_unstable_by` is an arbitrary permutation of the smallest values; differences with witnesses: exponents 0, empty windows, arrays without columns, last digits in binary64 |
| C95 | rust/src/records.rs: `col_range`, `col_map` and the selections, of positions and of records as memory, the sorting checks, expansion, stacking, value counts and masks; `record_array_compatible_with_rust`; the Numba functions are those of C45, C46, C47 and C67 | lockstep of the loops: flat ranges against pairs (`colRange_same`), in-place writes against appended lists (`sel_loop`, `rec_loop`), cell numbers `row * ncols + col` against pairs (`cell_inj`); the n-th element is unique among numbers (`nth_unique`), so every selection algorithm gives the pivot of the Numba engine; then the specifications of C45, C46, C47 and C67 | records are opaque but for the column; no overflow of `usize`; differences with witnesses: strided record arrays, negative `n`, stacking without columns, columns out of range |
| C96 | rust/src/labels.rs: every kernel and exported function, both memory layouts; of labels/nb.py now also the continuous trend labels, the choice of the mode and the exponential deviation | loops from the last row to the first give the rolling sums of the reversed column (`meanSums_rev`, `stdSums_rev`); a scan of the period finds the extreme of C38, which is unique; the loop over rows with the last extremum equals the loop over neighbouring extrema (`trendTurn_pairs`); thresholds as in C84 | deviation in row order in exact arithmetic without infinities only; differences with witnesses: deviation and mean in doubles, empty period, division by zero; labels of the Numba engine for thresholds that do not broadcast are not modelled |
| C97 | rust/src/indicators.rs: all caching and apply functions, true range and OBV in both memory layouts; indicators/nb.py over columns and lists of parameters | relation of dictionaries kept by the caching loops (`dict_loop`), so lookups agree (`dict_get`); averages and deviations from C88 and C96; elementwise steps cell by cell; short lists stop the loop (`loopE_stops`) | averages with a plain window in exact arithmetic only (differences in doubles: witness); windows of at least one row; arrays of one shape for the Numba engine; lists of different lengths are treated differently (theorem and witness) |
| C98 | rust/src/generic.rs: masks, `fillna`, cumulative sums and products, reductions of columns with the row-major loops for standard layouts, `nanstd` in one and in two passes, medians with an arbitrary `select_nth_unstable`, `describe`, elements by position, flattening, value counts, drawdown arrays with their broadcasting; the functions of generic/nb.py they replace | row-major loops proved to be the loops of the columns (`reduceC_get`, `cum_layout`); sums of squares expanded, and infinities followed through both loops (`onePass_exact`); sorting is unique (`arranged_sort`, `percentileSorted_eq`); one lemma for the loops over groups (`groups_loop`); drawdown arrays by positions (`npZip_spec`) | deviations and summaries in exact arithmetic only (differences in doubles: witnesses); summaries without infinite values; the sign of zero is not modelled; arrays without rows and invalid codes are treated differently (theorems) |
| C99 | signals/nb.py:297-553: random entries, exits and pairs by number and by probability for one column; utils/array_.py: `uniform_summing_to_one_nb`, `rescale_float_to_int_nb`; what the generator returns is an argument (53 random bits, numbers modulo the size of the range, duplicate-free samples) | differences of sorted 53-bit floats are exact and sum to one (`uniform_sums`); the rounding errors of the rescaled floats add up to less than one, so the leftover is never negative and the sums come out (`rescale_spec`, `Arith.Fine` for exact arithmetic and `float64`); windows, turns and ends from C32 and C33 | up to 2^50 rows; natural numbers of signals and waits; finding: with both waits 1 too many pairs are not refused and an odd number of rows leaves an entry without an exit (`C99_enex_crowded`); finding: `n = 0` with other waits writes outside of an empty array and raises (`C99_enex_none`) |
| C100 | rust/src/signals.rs:67-502, 1564-1600: the random functions for one column, with the same draws as in C99 | lockstep of the loops; `delta * f + lo` against the longer formula of `renormalize_nb` (no rounding in the extra steps, `renormalize_short`); running sums against the list of rows; alternating rows against every other row | as C99; negative `n` (a huge `usize` that panics) not modelled; finding: `n = 0` with waits that are not both 1 differs between the engines (`C100_none_differs`) |
| C101 | base/index_fns.py: `repeat_index`, `tile_index`, `stack_indexes`, `combine_indexes`, `drop_redundant_levels`, `drop_duplicate_levels`, `rename_levels` (with its effect on the argument), `pick_levels`; `tile` and `repeat` with labels | levels as lists; the loop over duplicates equals `dedup`; induction over the indexes for the product; permutations for the picked levels | labels are comparable with `==` (no NaN); the categories of a multi-index are the labels that occur; `droplevel` is pandas'; findings: nameless `0, 1, 2, ...` levels are dropped although they tell rows apart (`C101_stack_forgets`, `C101_tile_keys_forgets`), `rename_levels` writes to a plain index of the caller (`C101_rename_writes`, `C101_rename_writes_and_raises`), `keep='First'` keeps the last (`C101_keep_case`), more levels than expected do not raise (`C101_pick_more`) |
| C102 | base/reshape_fns.py: `unstack_to_array`, `unstack_to_df` (of a series and of a frame), `get_multiindex_series`, `make_symmetric` | the loop of assignments gives the last value with given labels; sorted against first occurrences; an indicator of one row shows the wrong label | levels are functions of the label of a row; `np.unique` sorts by a linear order; alignment of labels in `make_symmetric` is pandas'; names not modelled; findings: unsorted labels are mislabelled (`C102_df_iff`, `C102_df_wrong`; `C102_df_partial` keeps the sorted case), values are lost (`C102_array_loses`), one-row frames raise (`C102_frame_row`), not symmetric (`C102_not_symmetric`) |
| C103 | base/reshape_fns.py: `broadcast_index`, `wrap_broadcasted`, `broadcast`, `broadcast_to`, `broadcast_to_array_of`, `broadcast_to_axis_of`; `get_index`; NumPy's `broadcast_shapes` and `broadcast_to` | the joined shape as a least upper bound; loops over the arguments by induction; levels carried through `repeat_index` and `stack_indexes` (C101) as an invariant of the loop over labels | the step that aligns labels is modelled apart (`Model/Align`): here `align_index=False` and frames with more than one column have the same number of columns; names of series are labels or tuples; `np.require` keeps the elements; findings: `C103_strict_default` (so `C103_strict_partial`), `C103_columns_by_position`, `C103_series_as_row`, `C103_empty_raises`, `C103_names_dropped` |
| C104 | portfolio/trades.py: `winning`, `losing`, `win_rate`, `profit_factor`, `expectancy`, `sqn`, the metrics of `stats` built on them, streaks, extremes and open PnL; `MappedArray.reduce` | each statistic reduced to the trades of its column (C67), sums and means of numbers (C82), streaks by C23, extremes by C81 | exact arithmetic but for the win rate; PnL may be missing but not infinite; square root is a parameter; findings: `C104_expectancy_even` with the exact condition `C104_expectancy_iff` (so `C104_expectancy_partial`), `C104_win_rate_ignores_open` |
| C105 | utils/mapping.py: `reverse_mapping`, `to_mapping` of a named tuple, `apply_mapping`; utils/enum_.py; the enums of the library | dictionaries with distinct keys, then induction over the object (idempotence by mutual induction over nested lists) | sets, the dtype of results and non-ASCII case are not modelled; findings: `C105_first_decides` and `C105_mixed` (object arrays are judged by their first value), `C105_missing`, `C105_collision`, `C105_alias` |
| C106 | generic/drawdowns.py: `max_drawdown`, `active`, `active_drawdown`, `active_recovery`, `active_duration`, `active_recovery_return`, `active_recovery_duration`; `Ranges.duration`; `ReturnsAccessor.get_drawdowns` | records characterised by peak, low and end (C40), every row below the running maximum is in one of them (`dd_covers`); drawdowns of values and of cumulative returns differ by a factor only | exact arithmetic; finite values with the first above zero; columns not grouped; `to_timedelta` not modelled; findings: `C106_no_drawdown_counterexample` (0 against NaN), `C106_durations` |
| C107 | portfolio/base.py `from_signals` from its arguments to its records, `from_holding`, resolution of `use_stops`, `init_cash`, `call_seq`, `group_by`, `max_logs`; defaults of _settings.py | one cell executed symbolically, then induction over rows and columns; reconstruction on one record per column; C28 for callbacks; a simulation relation (stop variables stay NaN) for `use_stops` | exact arithmetic for the value; cash and size above the tolerance and the least size, no fixed fees, no short-only direction; findings: `C107_group_counterexample` (shared cash goes to the first column), `C107_init_cash_counterexample` (integers 0 and 1 are modes) |
| C108 | signals/accessors.py: `total`, `rate`, `total_partitions`, `partition_rate`, `first`, `nth`, `from_nth`, `nth_index` and `norm_avg_index` with groups, overlap and partition lengths of `stats` | sums over sets of rows and columns; runs from C34, ranks from C35, `nth_index` from C92; partition lengths by an invariant over rows | numbers of signals are integers; rates and indices in exact arithmetic; findings: `C108_nth_negative_counterexample`, `C108_group_index_counterexample`, `C108_single_row_counterexample` |
| C109 | records/mapped_array.py: `sort`, `apply_mask`, `top_n`, `bottom_n`, combination, `value_counts` with all options | arrays as lists of entries; stable sorting by a lemma about `insertionSort`; masks from C46, counts from C67, factorisation from C49 | `group_by` resolves to group numbers; mapping of labels as in C105; findings: `C109_pick_group_counterexample`, `C109_sort_group_counterexample` |
| C110 | base/accessors.py: `apply_and_concat`, `combine`; base/combine_fns.py: Python and Numba loops; signals/accessors.py: `AND`, `OR`, `XOR` | blocks of equal width by division with remainder; labels from `combine_two_exact` of C101; folds of booleans by induction | inputs already broadcast (C103); exact labels for named levels; types of elements not modelled; findings: `C110_single_counterexample`, `C110_default_columns_counterexample` |
| C111 | `ArrayWrapper.indexing_func_meta` with rows (`column_only_select=False`, `group_select=False`), `index_fns.get_index` | a pandas operation as a selection per axis, seen by the method only through its results on two frames; case analysis over the kinds of results | groups selected as columns are in C86; operations that change labels or fill cells left out; findings: `C111_one_row_rejected`, `C111_empty_rows` |
| C112 | `StatsBuilderMixin.stats` up to the wrapping of the result, `match_tags` | dictionaries as lists with insertion order; suffixed names proved injective on characters; filters as predicates; report by induction over the metrics | templates replaced, outputs of `calc_func` given, argument resolution is C113; findings: `C112_lost_counterexample`, `C112_same_title` |
| C113 | `AttrResolver.resolve_attr`, `Portfolio.pre_resolve_attr`, `get_trades` | invariant of the cache (it holds values for the common settings) by induction over the calls | objects as functions; `deep_getattr` and `passed_kwargs_out` not modelled; findings: `C113_explicit_ignored`, `C113_hook_ignored`, `C113_trades_type_ignored`, `C113_asset_returns_counterexample` |
| C114 | `ArrayWrapper.wrap`, `wrap_reduced`, `to_index`, `fill`, `fill_reduced`, `from_obj`, `soft_to_ndim` | arrays as lists of rows; acceptance as an equivalence, contents read off the result | resolved wrapper is an argument (C87); element types, time deltas and the sharing of memory with the result not modelled; findings: `C114_zero_name`, `C114_caller_changed`, `C114_nan_raises`, `C114_to_index`, `C114_fill_reduced` |
| C115 | `to_tzaware_datetime`, `to_timezone` of zone objects, `datetime_to_ms`, `interval_to_ms`, conversions of times of day | instants as rational seconds, zones as offset functions; the accepted integers as equivalences | rounding to microseconds, the range of years, the parsing of strings by `dateparser` and of zones by `pytz` not modelled; findings: `C115_units`, `C115_early_ms_counterexample`, `C115_negative_counterexample`, `C115_datetime64`, `C115_dst_counterexample` |
| C116 | `Wrapping.select_one`, `select_one_from_obj` | units and labels as lists; success as an equivalence with the unit meant; the units, their number and the way of indexing are specified apart from the model (`HasUnits`, `OneUnit`, `ByColumns`) | regrouping is C87; `group_select` on, keys of several levels full; pandas' positional fallback of `Series[int]` left out; findings: `C116_one_row`, `C116_setting`, `C116_repeated`, `C116_single_group` |
| C117 | `ScheduleManager.every` without `to` and `tags` | arguments as values, texts as strings; the accepted lists as an equivalence, induction over the arguments; the text of a time read back | the package `schedule` modelled from its documentation (plural and singular units, weekdays, formats of `at`); creating and running jobs not modelled; findings: `C117_time` (zones, microseconds), `C117_plain` (timedelta) |
| C118 | `is_deep_equal`, `Config.__eq__`, `Configured.__eq__` | values as trees, comparisons of arrays and leaves as parameters; structural induction, equality as a statement about paths | subclasses of lists and dictionaries left out; findings: `C118_longer`, `C118_config`, `C118_nested_exact` |
| C119 | `renormalize`, `min_rel_rescale`, `max_rel_rescale`, masks of `Trades.plot_pnl` | closed form of both scalings given the extremes, range and order from it; case analysis of the masks | rationals without rounding, returns given and not missing, range above zero; findings: `C119_zero_range`, undrawn trades in `C119_series` |
| C120 | `convert_tzaware_time`, `tzaware_to_naive_time`, `naive_to_tzaware_time`, `convert_naive_time` | microseconds modulo a day; each result characterised as the unique clock time of the same moment, round trips from that | the offset of a zone does not change during the day of the call; findings: `C120_no_zone`, `C120_order` |
| C121 | `deep_getattr` with `getattr_func` as a parameter | inductive relation from chains to flat lists of steps; mutual induction on it | iterables without a length left out; chains with empty parts only by `C121_empty`; findings: `C121_tuple_path`, `C121_pair` |
| C122 | loops of `BinanceData.download_symbol` and `CCXTData.download_symbol`, start of the download, `_retry` | the exchange is a function of call number and time; loop with fuel, enough fuel proved to exist; the history split around the candles wanted, induction on those left; invariants for other exchanges | conversion into frames left out; findings: `C122_limit_one`, `C122_gap`, `retries = 0` in `C122_retry` |
| C123 | `generate_gbm_paths`, `GBMData.generate_symbol`, `GBMData.update_symbol` for one path | factor of a step as a parameter, draws as an argument; closed form by induction, appending of draws | rationals without rounding; replacement of the last row by `Data.update` written out; findings: `C123_period`, `C123_one_row` |
| C124 | `get_symmetric_pos_th_nb`, `get_symmetric_neg_th_nb`, `local_extrema_apply_nb` (model of C59) | field arithmetic; simulation of the loop on reciprocal prices by the loop on prices with the direction negated | exact arithmetic, positive prices and thresholds; a negative threshold of one divides by zero and is left out |
| C125 | choice of the generator in `Portfolio.from_random_signals` | case analysis, each outcome characterised in both directions | generation itself is C99, the simulation C107 |
| C59 | labels | induction | ewm labels depend on all later rows; with rounding so do rolling means |
| C60, C68, C69 | indicators | window spec, 2 and 3; history of the cache | in binary64 %K can exceed 100; OBV adds the volume when the close is unchanged |
| C61 | stop choice functions | first hit, all hits | the recorded price is the stop level even if the bar opens beyond it |
| C62 | index alignment | list search | rows without a match shift all positions and leave junk at the end; an empty first index divides by zero |
| C63 | `Data.update` | finite maps, histories | `missing='nan'` overwrites old values by NaN; `drop` drops new labels of all symbols; correcting a past label moves it to the end |
| C64 | caching | decision logic, histories | a condition with a callable `func` makes every property decision raise; own ranks of 100 or more have no effect; same-named properties share a slot |
| C65 | templates | mutual structural induction | dictionaries of both mappings are merged; an unhashable element keeps a set with `safe` |
| C70 | `approx_order_value_nb` | refinement to a request, sorted permutation | percentages: no costs, free cash not negative |
| C71, C72 | free cash and directed assets | refinement of the loops to a margin account | an order of size 0 that paid a fee (C06) is not booked; finding: with the real tolerances flows in a direction lose every trade that is small next to the position (`C72_small_trades_lost`) |
| C73 | exposure | algebra, 3 and 4 | divides by \|asset value\| + free cash, not by the portfolio value; group shares of long and short do not add up |
| C74 | automatic initial cash | minimality by induction, 4; with tolerances by the bounds of C54 | with the real tolerances the series can go below zero (`C74_tolerance_counterexample`), by no more than `add_nb` may swallow (`C74_auto_within`) |

Further observations without a theorem of their own: `init_cash=0` or `1` given as an integer selects the automatic
modes (portfolio/base.py:1934); `ColumnGrouper.is_group_count_changed` compares the lengths of mappers; `Config.copy`
sets an attribute `_reset_dct_` that nothing reads; the default of `nested` in `Config` is False although documented
as True; `update_pos_record_nb` does not write `col` on a reversal.
