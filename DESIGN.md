# Formal model of nersent/pace in Lean 4 — design

## 1. What is modelled

The library is a set of *incremental components*: objects with a `next(input) -> output`
method that read a shared bar index and an OHLCV data provider.  Each component is modelled as

* a state structure,
* `new : ... → Res State` (constructor assertions are explicit panics),
* `next : Ctx α → State → In → Res (Out × State)`.

`Res α = Except Panic α`: every `unwrap` of `None`, slice/vector index out of bounds, failed
`assert!`, and `usize` subtraction below zero is an explicit `Panic` value (this is the behaviour of a
build with overflow checks; a release build without them would wrap instead of panicking on
`usize` underflow).  `usize` is `Nat` (no wrap-around at 2^64, no out-of-memory).

`Ctx` is the data provider together with the *current* value of the shared `Rc<Cell<usize>>` bar
index.  The sharing itself (clones of a `Context` seeing one index) is modelled separately in
`Verif/Model/Context.lean` as a world with one shared cell and arbitrarily many handles (C01).

Components are driven as in the project's README: one `next` per tick, from tick 0 on, with
`bar.index = tick`.  Inputs are series `ℕ → In`; a run over `n` ticks uses the first `n`.

## 2. Numbers

`f64` is modelled at three levels, the model itself being polymorphic over `[F64 α]`:

* **Level 0 — any `α` with the operations and no laws** (`class F64`).  Everything structural (trades,
  events, warm-up, None/Some patterns, caches, causality, panics, order of operations)
  is proved here, hence holds for IEEE binary64 bit by bit.
* **Level 1 — `Fl R`**: values `nan | +inf | -inf | finite k` over an ordered field, operations
  "exact result, then round" for an *arbitrary* rounding `R` that is monotone, odd, never yields
  NaN and fixes small integers.  Range theorems (RSI in [0,100] ...) are proved for every such `R`.
* **Level 2 — `Ex K` = `Fl` with exact rounding**: algebraic identities (SMA is a mean, Welford
  is the two-pass variance, net = gross profit − gross loss ...), division by zero still giving inf/NaN.

`Fl R` has a single zero, so `x/0` for finite x > 0 is `+inf` there. Two more layers close the gap to the hardware:

* `Verif/Float/Binary64.lean` defines `Rounding.binary64` (round to nearest, ties to even, overflow, subnormals), proves it is
  `Lawful` and that it is IEEE's rounding (`binary64_nearest`, `binary64_ties_even`, `binary64_overflow`).
* `Verif/Float/Signed.lean` defines `Sf R`, floats with two zeros and IEEE's sign rules, and `Valued R α`: "α agrees with `Fl R` up
  to the sign of zero, except that a quotient by zero may have either sign". Theorems with the suffix `_ieee` hold of every
  `Valued R α`, those with the suffix `_binary64` of `Sf (Rounding.binary64 ℝ)`.

Still idealised: NaN payloads; which zero `f64::max(-0.0, 0.0)` returns (Rust leaves it open); `log10` (no theorem assumes it correctly
rounded); the start value of `iter().sum()` (0.0 here; recent std uses -0.0, which only changes the sign of an empty sum).

## 3. Trusted base

Lean's kernel; axioms `propext`, `Classical.choice`, `Quot.sound` only (checked by vcheck);
the reading of the Rust source (each definition cites file and lines); the `class F64` reading of Rust's
f64 primitives (`f64::max/min` ignore a NaN operand, `powi(2)`/`powf(2.0)` are `x*x`, `iter().sum()`
adds left to right from 0.0).

**Checking the reading of the source.** That the Lean definitions say what the Rust code does is by reading; no tool translates one into the
other. As evidence against misreadings, `Verif/Conformance.lean` (not used by any theorem) runs the very definitions the theorems are about, on
hardware floats, over the project's own tests: all 138 fixture checks of the Rust test suite (about 570 000 rows recorded from TradingView,
indicators, strategy metrics, signals; the Rust tests' own tolerance of 1e-5 and missing ↔ missing) and the 73 hand-written cases of
`strategy_test.rs`, `common/tests` and `statistics/tests`, translated by `tools/rust_tests.py`. Every one agrees on every row
(`conformance/report.txt`; `tools/conformance.sh` reruns it in about 4 minutes).

## 4. Modelled and not modelled, by directory of pace/src

| directory | modelled | not modelled |
|---|---|---|
| core/ | `Context`, its iterator and clones, bar accessors, `InMemoryDataProvider`, `Timeframe` | `Rc`/`Arc`/`RefCell` memory management, `Any` downcasts |
| common/ | all of it (`FixNan`, caches, `Position`, `Src`, `WindowValidator`) | capacity hints |
| pinescript/ | all of it (`ps_*`) | |
| statistics/ | all of it (means, variances, Welford, min/max index, normalisation) | |
| ta/ | all of it | `usize as i32` truncation in `bars.rs` |
| content/ | every indicator, its default configuration and its signal strategy | `to_box` (boxing itself; the boxed averages `AnyMa` and boxed sources may be any components: `C53_macd_any` etc., `C51_any_averages`) |
| strategy/ | `Strategy` runner, trades, events, `EquityMetrics`, `Returns`, TradingView and Cobra metrics, the free functions of `metrics/common.rs` | the text rendering of the printed tables (their contents and colours are modelled in `Model/Report.lean`) and the drawing of the plots (their points are in `Model/Label.lean`), `strategy_context.rs` (absent from `mod.rs`, not part of the crate) |
| polars/ | `SeriesCastUtils::to_f64/to_bool/to_trade_dir...`, `from_df`, `merge_*`, choice of reader by extension | polars itself, file access, CSV/parquet parsing, `to_i32`/`to_usize` casts |
| asset/ | `Timeframe` | |
| testing/ | `comparison.rs`, `array_snapshot.rs` | `fixture.rs`, `pace.rs` (paths of fixture files) |
| utils/ | file name extensions and stems as used by `read_df` and `save_df` | `utils/polars.rs` (not in `mod.rs`), decimal formatting of floats, directory creation |
| example/src/main.rs | the RSI program (`Verif/Props/Program.lean`) | its printing |

The year of a timestamp (chrono, a library whose source is not in the sandbox) is modelled in `Model/Calendar.lean` after chrono 0.4.23's
published algorithm; C74 proves that model equal to the Gregorian calendar, and every other theorem about the Cobra metrics holds for
any assignment of years to bars.  A parameter of the model rather than a model of a library: the conversion of seconds to a `Duration`
(`fromSecs`, which may fail) in `from_df`.

## 5. Plan per property

| id | model | proof |
|----|-------|-------|
| C01 | world with shared index/running cells, op list of clone/next | invariant over op list, outputs = range then None |
| C02–C04 | `Ctx` accessors, provider constructors | case analysis on index/length |
| C05 | FixNan | induction over history |
| C06–C08 | WindowCache/IncrementalCache | invariant values = history |
| C07 | | negation with witness + exact characterisation |
| C09 | WindowValidator | invariant on last None tick |
| C10–C12 | Position, Src, ps_* | direct |
| C13–C16 | Mean, Var, Welford | algebraic invariants at level 2 |
| C17 | find_max/min_index | loop invariant |
| C18–C20 | normalization | level 1/2 order reasoning |
| C21–C22 | Sma, Sum | running-sum invariant, level 2 |
| C23–C24 | Ema, Rma | recurrence invariant; panic characterisation |
| C25–C26 | Wma, Swma, Dev, Stdev | window invariant + algebra |
| C27–C29 | Change, Roc, Prank | window invariant |
| C30–C32 | Highest, Lowest, *Bars, Stoch | window invariant + C17 |
| C33–C34 | Tr, Atr, Rsi | data-driven spec, range at level 1 |
| C35 | Cross family | two-tick spec |
| C36–C45 | Strategy | refinement to a position state machine; folds |
| C46–C50 | metrics | invariants over runs |
| C51 | all | agreement relation on contexts |
| C52 | encodings | cases |
| C53–C56 | content | composition of series specs |
| C57 | ta, content constructors; relative volatility index | corollaries of the refinement theorems; exact panic condition by splitting a run into its two averages |
| C58 | common metrics fns | cases |
| C59–C61 | Cobra and TradingView ratios | invariants tying the metric state to the history of equities; level 2 formulas |
| C62 | Connors streak | level 1 (integers below 2^53 are exact) and `_ieee` |
| C63 | all content components | `Runs` exists on complete bars; `SilentBefore` warm-up ticks composed from the parts |
| C64 | all moving averages | `Runs` against textbook formulas on series starting at any tick; convexity |
| C65 | context loop, example program | the loop's rounds are the components' own runs |
| C66 | polars adapters | functions on lists of cells |
| C67 | readable fields | `observe` wraps a component with a view of its state |
| C68 | sums and averages for every rounding with relative error u and underflow error η (`Rounding.Accurate`; binary64: 2^-53, 2^-1075) | invariant `Near` (float within e of the exact value), error recurrences: drift for running sums, contraction by 1-α/2 for smoothing |
| C69 | ranges of balance of power, Williams %R, Aroon, percent rank and stochastic in floating point; two binary64 counterexamples (stochastic above 100, money flow 2) | monotonicity of rounding and exactness on small integers; `Accurate` for the bound above 100; kernel evaluation of the model in binary64 for the counterexamples |
| C70 | `Spec.SameRecent`, `Spec.Remembers`, `Spec.RemembersBars`: two runs with the same last n inputs return the same, whatever came before and at whatever ticks; exponential forgetting of Ema/Rma; the binary64 counterexample for Sma | every component's output is a function of its window (`*_runs`, C53 formulas) and windows of equal recent inputs are equal; induction on the recursion for Ema; explicit binary64 rounding of 2^54 + 1 for the drift |
| C71 | `Dilation` (a map that arithmetic cannot distinguish from a change of unit), `Units` (price, size, money), `DataProvider.rescale`, `Spec.Commutes`, `Spec.BarsCommute`; `Rounding.Homogeneous k` and its instances: every k > 0 in exact arithmetic, powers of two for `Rounding.wide` (53 bits, unlimited exponent), which agrees with binary64 on results of normal size | each `next` commutes with the rescaling of its state (all branches, panics included), lifted to runs by induction (`outputs_convert`); counterexample for Stdev |
| C72 | `DataProvider.mirror`, `Spec.OppositeBooks`, `Spec.MirroredBooks`, `Spec.Alike` (same panic or related results) | a simulation (`Lemmas/Sim.lean`: one step of the runner from related states, for any way of relating profits that `tradePnl` and `closeMetrics` respect), lifted to runs; the two instances use only that rounding is odd; the metrics by showing that `EquityMetrics.next` cannot tell the two runs apart; zero sum by induction over the equity metrics |
| C73 | `Spec.SameBooks` | the same simulation with everything equal but the equity |
| C74 | `Calendar.yearOfMillis`, `Ctx.barYear`; spec: `leapYear`, `newYear` (sum of the lengths of the years) | closed form of the number of leap days, induction over years, the 400-year cycle by linear arithmetic |
| C75 | `Model/Report.lean`: the cells of the printed tables (label, value handed to `format!`, colour); spec: `band`, `part`, `ClosedProfits` | rewriting the statistics of C40/C49/C59 as sums and counts over the profits of the closed trades; invariant `0 ≤ intraTradeMaxDd`; C71 for the currencies |
| C76 | `Model/Snapshot.lean`; spec: `DiffersAt`, `Close` | induction over the two series |
| C77 | `DataProvider.mirror`, `SignSymmetric` (arithmetic that treats both signs alike; proved of every lawful rounding with unsigned zero), `Spec.Mirrors`, `Spec.BarsMirror`, `Spec.SignalsTurn` | for each component a map of states (negate, swap) that commutes with one step, lifted to runs (`Lemmas/Reflect*.lean`); the bounded oscillators in exact arithmetic from their textbook formulas (C34, C53); programs by C65 and C72. Signed zeros are left out: `0 - 0` and its negation differ in sign on binary64 |
| C78 | `Spec.calls` (the i-th call at bar `τ i`), `Spec.StartsAfter k`, `DataProvider.cut`, `Spec.Sampled`, `Spec.recent`, `Spec.Clear`, `Strategy.rename` | a relation between the states of the two runs (equal but for the validators' bar numbers, shifted by `s`) kept by one step, composed through every indicator (`Lemmas/Schedule*.lean`); state invariants for arbitrary schedules; a renaming of ticks that commutes with the runner and is invisible to the metrics. RSI, MACD and the averages of kind Swma are not covered for schedules with gaps: `C78_rsi_gap`, `C78_wma_panics` show that they differ |
| C79 | `Spec.HasBar`, `Spec.Missing`, `Spec.OnlyMissing` (all schedules `τ` that do not go back, all inputs, any float arithmetic) | a Hoare-style predicate `Good` on single calls, an invariant per component (buffer lengths at least 1, recorded bar numbers not in the future), induction over the calls (`Sound.only`); `Props/Missing.lean`; the witness `C79_backwards` shows that the schedule hypothesis is needed |
| C80 | `raise k` (add `k` to a float of exact arithmetic), `Increasing` (any order-preserving map, any arithmetic), `Spec.Commutes`/`Spec.BarsCommute` of C71, `Strategy.raise` | two runs side by side (`Lift`: a relation between the two states kept by every call), with the series forms of the window components where states differ by sums of `k`; the strategy by `Sim` of C72; non-invariance by concrete counterexamples; `Lemmas/Level*.lean`, `Props/Level.lean` |
| C81 | `Spec/Position.lean`: `held` (the position, from the signals only), `earned` (sum of position times price change), `fillSeries`; exact arithmetic, `buy_with_equity = false` | invariant of the position state machine of C39 (`Tracks`: what the ledger is worth at the last fill price); `C81_position` in any arithmetic; `Props/Position.lean` |
| C82 | `deals` (the timetable, from the signals only), `growth`, `grown`, `wealth`, `worth`; exact arithmetic, `buy_with_equity = true` | invariant of the position state machine of C39 (`Compounds`); `C82_timetable` in any arithmetic; `Props/Compound.lean` |
| C83 | `Near` and `drift` of C68, `FloatBars`, `booked`; `Valued R α` with `Rounding.Accurate` | a float sum of floats near given numbers (`fsum_near`), on the timetable of C82; one unit is rounded once (`unit_near`); trade by trade equals tick by tick (`booked_earned`); `Props/BookError.lean`; with equity-sized trades the equity after n closed trades is within (n+1)·48(1+ρ)u·B/w₀ of the exact product of growth factors, relatively (`C83_compound`): size and profit of one trade are near (`size_near`, `profit_near`), each trade adds one relative error (`trade_near`), `Spec.TameRun` names what is assumed of the exact books (prices in [m, M], price ratio at most 1+ρ, exact equity in [w₀, B]) and `Spec.FarFromLimits` that these are far from overflow and subnormals; `Props/CompoundError.lean` |
| C84 | `FlatBars`, `Still`, `NoNumber`, `SitsOut` | the exact series of C53/C64/C34 evaluated on constant bars; signals by C55 (`C84_no_signal`); an idle backtest in any arithmetic (`C84_idle`); relative volatility only with `m = 1` or `n <= m + 2` (as C53), price oscillator signals only for a price other than 0; `Props/Flat.lean`. In floats (`Props/FlatFloat.lean`, any lawful rounding, binary64 at the end): `StandsStill` bars (four prices of equal value), exactly zero / NaN / missing indicators and `NeverTrades` for twelve programs; left out there are %B, CCI, relative volatility, MACD, the awesome and the price oscillator, which subtract an average from a price or from another average and so show the rounding of that average; `Props/FlatFloat2.lean` has runs on which average, CCI and the MACD strategy indeed differ from the exact ones (existence statements: closed runs evaluated by the kernel) |
| C85 | `Model/Label.lean`; `positionLabel`, `positionArrow` | the last trade of the ledger by cases on the tick (`last_shown`), positions by C81, histories by C49; `Props/Labels.lean` |
| C86 | `NotLess`, `KeepsOrder` | linearity and order of the spec averages by induction on the window or the recursion (`average_linear`, `average_mono`); in floats by monotone rounding of each operation with non-negative weights; the SMA counterexample reuses the drift of C70; `Props/Order.lean` |
| C87 | `Rises`, `Falls`, `AllRise`, `AllFall`, `NumberOrNan` | strict comparison of the spec averages by induction (`average_shorter`, `average_below`); constant series have no crossings; in floats the losses (gains) are exact zeros, so RSI is 100 - 100/(1 ± inf); `Props/Trend.lean`, `Props/TrendFloat.lean` |
| C88 | `held` (Spec/Position), `latest`, `changes`, `SameView` | the ledger after a tick is a function of the ledger before it and of the new direction (`tick_congr`), so equal positions give equal ledgers by induction; existence from `C57_strategy`; `Props/OnlyPosition.lean` |
| C89 | `TvRun`, `CobraRun`, `EquityRun` on the same `st` | both reports step the same equity component; Cobra's figures are those after the last exit (C59), which are the current ones (C40); `Props/TwoReports.lean` |
| C90 | `NoGaps`, `later` | the ledger of the open-filled run is that of the close-filled run with ticks one later, by induction; `Props/NoGap.lean` |
| C91 | `ValuesFrom`, `LinesFrom`, `CrossRule`, `latest`, `held` | induction on ticks: above the level now means either a crossing now or above it one tick earlier; then C88 for the position and C81 for the equity; `Props/Side.lean` |
| C92 | `StaysNear`, `slack`, `Room`, `PricedBars`, `lineSignal`, `crossSignal` | the error of an input is carried through an average by its linearity and order (C86) and added to C68's bound; comparisons agree when the distance exceeds the error; then C65 for the program and C81/C83 for both equities; `Props/AccuracyContent.lean`, `Props/AccuracySignals.lean`, `Props/AccuracyProgram.lean`, the generic programs in `Props/AccuracyLines.lean` |
| C93 | `rsiLine` | the errors of the two averages through the share `U / (U + D)`, and the code's formula with an overflowing or zero quotient case by case; `Props/AccuracyRsi.lean`; the stochastic against the line's own extremes: `Props/AccuracyStoch.lean` |
| C94 | `barRange`, `Near.ratio` | extremes keep order, so errors pass through; ratios whose divisor is bounded away from 0; `Props/AccuracyRange.lean`, `Props/AccuracyChannels.lean`, `Props/AccuracyOscillators.lean`, programs in `Props/AccuracyLines.lean` |
| C95 | as C92 | running sums, whose error grows with the run, and their ratios: `Props/AccuracySums.lean`, `Props/AccuracyRatios.lean`, `Props/AccuracyVortex.lean`, programs in `Props/AccuracyPrograms.lean` |
| C96 | as C92 | `Props/AccuracyCurves.lean`, `Props/AccuracyCci.lean` |
| C97 | `aroonLine`, `AroonSignals` | the comparisons are decided by the ages of the extremes, which are integers, so no margin is needed; `Props/AccuracyAroon.lean` |
| C98 | `standardDeviation`, `stdevError`, `percentBLine`, `bandWidthLine`, `RoundedRoots` | squares and their sum are rounded relatively to the sum itself, so the root is near the root mean square of the rounded deviations (`near_rms`), which is near that of the exact ones (Minkowski, via Cauchy-Schwarz); `Props/AccuracyRoots.lean`, `Props/AccuracyBands.lean` |
| C99 | `plusLine`, `minusLine`, `adxLine`, `ClearMoves`, `strongSignal` | the movement that counts is the exact one or both are tiny (`near_move`), then C92 for the running means, quotients as in C94, and the program as in C92; the exact run is the same theorem with rounding error 0; `Props/AccuracyDmi.lean` |
| C100 | `connorsLine`, `rankLine`, `ClearRanks`, `streakSeries` | C93 twice (the price, and the streak, which C62 says is exact), C96 for the rate of change, and comparisons that rounding cannot turn (`rank_near`); program as in C92; `Props/AccuracyConnors.lean` |
| C101 | `upMoves`, `downMoves`, `upAverage`, `volatilityLine`, `volatilityError` | C98 for the deviation, `near_sign` (rounding does not turn a price change), exponential averages of series with gaps (`ema_gaps`, `emaSeries_close`); the exact program is the same theorem at exact rounding, so the 1e-10 cut of the code is inside the error; `Props/AccuracyVolatility.lean` |
| C102 | `choppinessLine`, `NearLogs` | C94 for the true range and the extremes, `sum_room` for the running sum, `spread_le_win` (the ratio is at least 1, C53), above 1/2 the decimal logarithm is not steeper than 1 (`logb_near`), `Near.quot`; the error of the platform's logarithm is a parameter; the code has no strategy on this index; `Props/AccuracyChoppiness.lean` |
| C103 | `netCurve`, `equityCurve`, `peak`, `trough`, `worstOpen`, `drawdownCurve`, `runUpCurve`, `dealProfit`, `won`, `lost`, `bookedOn`, `perTrade` | the exact curves of C81 and C83's bound for the books; running extremes do not enlarge errors; extremes over exits are those over all ticks (`exits_near`); `unit_sign` and `C103_apart` (two binary64 numbers differ by more than half the smallest positive one or not at all) give the counts; `near_fraction` for the quotients; `Props/AccuracyReport.lean`, `Props/AccuracyTrades.lean`, `Props/AccuracyAverages.lean` |
| C104 | `mean`, `popVar` (C13, C14), the booked profit of C83 | the states of the incremental components are sum, count and list (`feed_mean`, `feed_stdev`); `fsum_near`, `near_rms` and `rms_close` (C98) for the deviation; C103 for the net equity; `near_fraction`; `Props/AccuracyHistory.lean` |
| C105 | `countedTicks` (C61), `returnOf`: equity over the equity before, minus 1 | the state of the report by induction over the ticks: lists of returns; `return_near` (C103, `near_fraction`), `stats_list` (C104), `sum_list`, `annual_ratio`; `Props/AccuracyCobra.lean`. The drop within trades: `dropInTrades` over the timetable `deals`, `closedOn_trade` (C82), C59, C103; `Props/AccuracyIntra.lean` |
| C106 | `wealth`, `worth` of C82, `TameRun` of C83, `returnOf` of C105 | `worthCurve_near` (C83_compound with one bound for the run), `runMax_near`, `near_fraction`, `ratios_near` (the common part of C105 and C106); `Props/AccuracyCompound.lean` |
| C107 | `sampleVar`, `hist` of C15 | `mean_moves`, `sqDev_moves` (the exact recurrence), `welford_near` (invariant: mean within `δ + 9n·uB`, sum of squares within `70n·B(δ + NuB)`); `Props/AccuracyWelford.lean` |
| C108 | `F64.le (lit 0)` of the outputs, `Representable` | `mag_half` (half the rounded distance of two floats, rounded, is at most the distance), `mean_step` (the rounded mean stays between the old mean and the value), `round_at` for the concrete rounding; `Props/WelfordFloat.lean` |
| C109 | `FastRatios`, `fastDev` (last output of the fast standard deviation fed the list), `sampleVar`, `returnOf`, `equityCurve` | induction over the ticks for the list of returns; `fast_list` (C107 on the list of the ticks that count), `annual_ratio` of C105 for the quotient; `Props/AccuracyFast.lean` |
| C110 | values (`V.val`) of the report fields, `CobraRun`, `TvRun` | `C84_idle` for the books, `zero_stats` (mean and both deviations of a list of zeros), the lists of returns of C104, C105 and C109; `Props/IdleReports.lean` |

Every property is proved for all runs; none is partial. Theorem names start with the property's id; `MANIFEST.json` is generated from
them by `tools/manifest.py`, `properties.jsonl` by `tools/props.py`.

## 6. Reading the theorems

* `Runs step new x N y` — created by `new` and fed `x 0 … x (N-1)`, one per tick, the component does not panic and returns exactly
  `y 0 … y (N-1)`. `outputs`, `Runs`, `NeverPanics`, `Succeeds` are the only notions of observation.
* `flo x` embeds a series of exact numbers with gaps into floats; `startAt s f` is the series missing before tick `s`.
* `ExBars d N o h l c v` / `Bars` — the provider holds `N` complete bars with these columns.
* `Spec.*` — the independent specifications (textbook formulas, position state machine, ledgers); they do not mention the model's state.
* `Backtest cfg d sig N st` — a strategy runner driven with the signals `sig`; `TvRun`, `CobraRun` — metrics driven along with it.

Beside the theorems, `example`s instantiate them on concrete data. `seeded/LOG.jsonl` records the wrong programs tried against them.
- Concrete cases: every property theorem is applied by name to a concrete, non-trivial case: beside the theorem (`example`), in `Props/Witness.lean` (40 bars over the reals and in binary64 fed to the theorems on indicators), or in `Cases/*.lean` (grouped by subject; `Cases/Data`, `FloatData`, `Runs` hold the data). Where arithmetic is computable the case goes on to the literal outputs. `tools/cases.py` lists theorems without such an application; there are none.

## 7. Findings: behaviours of the code the proofs brought out

1. `Change`/`Roc` return `None` when the value N bars ago is 0.0 (C27, C28).
2. `Returns.prev_value` is never updated: `delta` is the distance to the initial value; TradingView Sharpe/Sortino use it (C50, C60).
3. `EquityMetrics` bar_open_profit_min/max keep stale values while flat (C47).
4. Cobra's intra-trade drawdown is divided by the entry price, not by an equity (C59).
5. EMA/RMA (hence RSI, ATR, DMI, MACD, ...) panic on a missing value after seeding (C24).
6. RSI is `Some(NaN)` exactly while the price has not moved (C34); ADX is NaN for ever after a tick with both lines 0 (C56).
7. `Var` with `fast` divides by n−1, without by n (C16).
8. PriceOscillator's default lengths are swapped (short 21, long 10); its division is unguarded (C53).
9. Williams %R strategy goes Long on a rise through *overbought*, Short on a fall through *oversold* (C55).
10. `scale_value_min_max` is wrong for min > 0 (C20).
11. `WindowCache::size()` counts all pushes; `get` reaches outside the window or panics (C07); `WindowValidator` is true before `length` inputs (C09).
12. After an iteration the bar index is one past the end, so bar accessors panic; empty data panics (C01–C03).
13. Dev/Stdev of length 1 return `Some(0)` even for a missing input; unbiased Stdev of length 1 `None`; Stdev treats |deviation| < 1e-10 as 0 (C26).
14. `profit_factor` `None` becomes 0 in the metrics; `returns()` is 0 when an equity is 0 (C58).
15. Wma/Swma/Highest/Lowest/Prank/Stoch warm up by the bar index, not by the inputs seen (C25, C29–C32).
16. Sma/Sum stay NaN for ever after an infinite or NaN input (C21, C22); in binary64 they do not forget rounding errors either (C68).
17. `compute_up_down` of Connors RSI treats two missing values as equal and the first tick as a fall (C62).
18. The relative volatility index panics on valid prices if 2 <= ma_length and ma_length + 3 <= length (C57).
19. DMI strategy's weak-trend threshold is never used (C55). Missing fill price, or missing close while holding, panics (C57).
20. Choppiness of length 1 divides by log10(1) = 0, and can exceed 100 (C54). VolumeOscillator exceeds its documented maximum (C54).
21. ArraySnapshot's comparison of `Option<(Option, Option)>` ignores the second element (C76).
22. In binary64 the stochastic oscillator can exceed 100 (value = high = 0.69, low = 0) and the Chaikin money flow can be 2 (C69); balance of
    power, Williams %R, Aroon and percent rank keep their ranges.
23. `Highest`/`Lowest` (and what is built on them) report extremes of incomplete windows when first called after bar `length - 1`; when bars are
    left out, `Wma`/`Swma` panic on a missing value still in their window, `Sma`/`Sum` average over it, and RSI seeds one call early (C78).
24. `WindowValidator` subtracts bar numbers: driven again over the same data without being rebuilt, `Sma`, `Sum` and what contains them compute
    `tick - last_none_tick` below zero (a panic with overflow checks, a huge number without); on forward schedules nothing underflows (C79).
25. The arrow of an entry is shown only while the trade is open: looking back, a closed trade shows its exit only; in continuous mode the
    exit label never appears while the program runs; the equity plot shows the equity of bar k at x = k + 2 (C85).
26. In binary64 `Sma` is not monotone: after 2^54, 1, 1 its two-bar average is 0.5 although 1, 1, 1 has average 1 (C86).
27. Every strategy that waits for a crossing sits out a market that only rises (or only falls): RSI, CMO, RVI, stochastic RSI, MACD, price
    oscillator, Coppock, DMI, Aroon and vortex never open a position and earn nothing (C87).
28. A tick on which the indicator has no value (NaN or missing input) hides a crossing: there is no signal on it and none on the next tick,
    so a strategy can stay on the wrong side until the next crossing (C91).
29. In binary64 an average of equal prices need not be that price, and differences of averages show it: in a market that does not move the
    default CCI reads about -66.67 on every bar (price 0.1) and the default MACD strategy goes long (price 0.49) (C84).
30. In binary64 the default variance of three equal numbers can be 1 (7205759403792794, a scaled 0.1), while the fast variance of equal numbers is
    always exactly 0 and is never negative for any binary64 input up to 2^1021 (C108).
