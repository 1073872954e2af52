#!/usr/bin/env python3
"""Generates /verif/properties.jsonl (kept as a script so that ids and fields stay uniform)."""
import json, os
P = []
def p(id, title, statement, quantifier, why, *anchors):
    P.append(dict(id=id, title=title, statement=statement, quantifier=quantifier,
                  why_tests_cant=why, anchors=list(anchors)))

S = "pace/src/"
p("C01", "Iterating a context visits every bar exactly once, in order, across all clones",
  "Calling `next` on a Context or on any of its clones, in any interleaving, yields first_bar_index, first_bar_index+1, ..., last_bar_index, each exactly once and in order over all handles together, and then None forever; the shared bar index equals the last yielded tick while iterating.",
  "every start/end tick, every number of clones made at any point, every interleaving of next calls over the clones, every number of calls",
  "The sequence of clone/next calls is unbounded and the state is shared through Rc<Cell>; a test fixes one interleaving.",
  S+"core/context.rs: Context::new, Context::clone, Iterator::next, Bar.index")
p("C02", "Bar accessors read exactly the current tick's value and panic out of range",
  "bar.open/high/low/close/volume/time return the provider's value at the current bar index, whatever index that is; they panic exactly when the index is outside the data; after a complete iteration the shared index is one past the end, so every bar accessor panics.",
  "every data set and every bar index",
  "Requires all data lengths and all positions including the post-iteration one.",
  S+"core/context.rs: Bar::open..volume", S+"core/in_memory_data_provider.rs: get_open..get_time")
p("C03", "Look-back accessors never look ahead and are None before the beginning",
  "ctx.high(n)/low(n)/close(n)/volume(n) at tick t return None when n > t and otherwise the value of tick t-n; ctx.highs(len) (and opens, lows, closes, volumes) return the `len` values of ticks t-len+1..t oldest first, and panic exactly when fewer than len bars are available, when len is 0, or when the tick is outside the data.",
  "every data set, tick and offset/length",
  "Offsets and ticks range over all naturals; boundary t = n-1, len = t+2 etc. must all hold.",
  S+"core/context.rs: Context::high, low, close, volume, opens, highs, lows, closes, volumes", S+"core/in_memory_data_provider.rs")
p("C04", "The in-memory provider spans exactly the close column",
  "InMemoryDataProvider::new and from_values give start tick 0 and end tick len(close)-1, Context::new then counts bars = len(close); an empty column panics instead of giving an empty context.",
  "all column lengths",
  "Quantifies over all lengths including 0.",
  S+"core/in_memory_data_provider.rs: new, from_values", S+"core/context.rs: Context::new")
p("C05", "FixNan returns the latest non-None input",
  "After any sequence of inputs, FixNan returns the most recent non-None input, and None only if no non-None input was ever given.",
  "all input histories", "Property of every history, not of a sample.", S+"common/fixnan.rs: FixNan::next")
p("C06", "WindowCache exposes exactly the last N pushed values",
  "After any pushes: all() is the list of the last min(N, pushes) values oldest first; last() is the latest push; first() is the value N-1 pushes ago if N values were pushed and None otherwise; is_filled() iff at least N values were pushed; get(i) is the value i pushes ago.",
  "all push histories, all window lengths, all indices", "Unbounded histories and indices; off-by-one errors appear only at particular sizes.",
  S+"common/window_cache.rs: WindowCache::{next,get,all,first,last,is_filled,size}")
p("C07", "WindowCache's size and get reach outside the window",
  "Although documented as storing values within a fixed-size window, size() is the number of all pushes ever made (it exceeds every bound), get(i) returns the value i pushes ago also for i >= length, and panics exactly when i is not smaller than the number of pushes.",
  "all push histories and indices", "Needs unbounded histories.", S+"common/window_cache.rs: WindowCache::{size,get}")
p("C08", "IncrementalCache is the full history",
  "all() is the list of all pushed values in order, get(i) the value i pushes ago (panic if fewer), first/last the ends (panic when empty), size the number of pushes.",
  "all histories and indices", "Unbounded histories.", S+"common/incremental_cache.rs")
p("C09", "WindowValidator is true exactly when no None is in the window",
  "Called once per tick from the first bar, WindowValidator(length) returns true at tick t iff none of the inputs at ticks max(0,t-length+1)..t is None (in particular it may be true before `length` inputs were seen, contrary to its doc comment).",
  "all input sequences, all lengths, all ticks", "Every position of the last None relative to the window matters.", S+"common/window_validator.rs")
p("C10", "Position counts its calls", "The n-th call of Position returns n-1.", "all n", "Unbounded.", S+"common/position.rs")
p("C11", "Sources read the advertised price combination of the current bar",
  "Src of kind Open/High/Low/Close/Volume returns that column at the current tick (None if missing); OHLC4/HLC3/HL2 return the arithmetic mean of the named prices of the current bar and panic if one is missing.",
  "all data, ticks and kinds", "All inputs; the mean is an arithmetic identity.", S+"common/src.rs")
p("C12", "PineScript arithmetic propagates missing values and never divides by zero",
  "ps_add/ps_diff/ps_div/ps_max/ps_min are None if either operand is None; ps_div is None on zero denominators and otherwise the quotient; ps_nz replaces None by 0; ps_abs maps; no ps function panics; with finite real operands ps_div is always finite.",
  "all optional operands", "All float pairs.", S+"pinescript/common.rs")
p("C13", "Mean is the arithmetic mean of all inputs so far",
  "The k-th output of statistics::Mean equals (x1+...+xk)/k in exact arithmetic.", "all finite input histories",
  "Every history length.", S+"statistics/mean.rs")
p("C14", "Var/Stdev (default mode) equal the population variance of the history",
  "With fast=false, the k-th output of statistics::Var is (1/k)·sum (xi-mean)^2 over the whole history and Stdev is its square root; both are non-negative.",
  "all finite input histories", "Every history length.", S+"statistics/var.rs", S+"statistics/stdev.rs", S+"statistics/common.rs")
p("C15", "Welford's variance equals the two-pass sample variance",
  "WelfordsVar (also Var::fast) returns 0 for the first input and then sum (xi-mean)^2/(n-1), exactly the two-pass sample variance; WelfordsStdev its square root.",
  "all finite input histories", "An inductive algebraic identity over all histories.", S+"statistics/welfords_var.rs", S+"statistics/welfords_stdev.rs")
p("C16", "The fast flag changes which variance is computed",
  "Var::fast returns the sample variance (divisor n-1) of the history and Var::new the population variance (divisor n): (n-1)*fast = n*default on every history, so the two modes agree only when the variance is 0.",
  "all histories", "Relation over all histories.", S+"statistics/var.rs")
p("C17", "find_max_index / find_min_index return the first extreme",
  "For a non-empty array with at least one value, find_max_index returns the smallest index whose value is >= every other present value (strictly greater than all earlier ones); with no value at all it returns the last index; an empty array panics. Dually for find_min_index.",
  "all arrays of optional numbers without NaN", "All arrays.", S+"statistics/math.rs")
p("C18", "clip_value lands in [min,max] and fixes values already inside",
  "For min <= max and non-NaN value, clip_value(value,min,max) is within [min,max], equals value if value is inside, min if below and max if above, is monotone and idempotent.",
  "all values and bounds", "All float triples.", S+"statistics/normalization.rs: clip_value")
p("C19", "scale_value_up/down/centered give a strength in [0,1]",
  "scale_value_up is 0 at or below the threshold, 1 at or above max, in [0,1] always and monotone in value; scale_value_down mirrors it; scale_value_centered is 1 at the mean, in [0,1], 0 from distance (max-min)/2.",
  "all values and admissible parameters", "All reals.", S+"statistics/normalization.rs")
p("C20", "scale_value_min_max maps [min,max] onto [-1,1] only for min <= 0",
  "For min <= 0, scale_value_min_max(value,min,max) maps min to -1 and max to 1 linearly. For every min > 0 the minimum is not subtracted: the result is 2*value/(max-min) - 1, so min is mapped above -1 and max above 1.",
  "all min < max and values", "All reals.", S+"statistics/normalization.rs: scale_value_min_max")
p("C21", "SMA is the mean of the last N inputs",
  "Fed once per tick, Sma(N) at tick t is None if t < N-1 or one of the last N inputs is None, and otherwise the mean of exactly the last N inputs — including after gaps of None (the running sum never drifts in exact arithmetic).",
  "all N >= 1, all input sequences with gaps, all ticks", "The running-sum invariant must survive every gap pattern.", S+"ta/simple_moving_average.rs")
p("C22", "Sum is the sum of the last N inputs",
  "As C21 for ta::Sum without the division (N >= 1).", "all N, sequences, ticks", "Same.", S+"ta/sum.rs")
p("C23", "EMA follows its recurrence from an SMA seed",
  "Ema(N, alpha) is None until the first tick whose last N inputs are all present, there equals their mean, and afterwards out(t) = alpha*x(t) + (1-alpha)*out(t-1); for N = 1 it is the input itself. Ema::new uses alpha = 2/(N+1), Rma alpha = 1/N. In exact arithmetic the output is the explicit weighted sum with weights adding up to 1, hence lies between the smallest and largest input used.",
  "all N, alpha, gap-free (after the first value) input sequences, all ticks", "A recurrence over unbounded time.", S+"ta/exponential_moving_average.rs", S+"ta/running_moving_average.rs")
p("C24", "EMA/RMA panic on a missing value after seeding, window components do not",
  "Ema (hence Rma) of length > 1 completes a run without panicking if and only if no input is None on any tick after the first full window of present inputs; Sma, Sum, Wma, Swma, Dev, Stdev, Change, Roc, Prank, Highest and Lowest accept None on any tick without panicking.",
  "all histories", "Panics depend on history.", S+"ta/exponential_moving_average.rs: value.unwrap()", S+"core/incremental.rs")
p("C25", "WMA and SWMA are the advertised weighted means of the last N inputs",
  "Wma(N) at tick t >= N-1 with the last N inputs present equals sum i*x_i / (N(N+1)/2) with the newest weight N and the oldest weight 1; Swma equals (x0+2x1+2x2+x3)/6 of the last four; otherwise None.",
  "all N, sequences, ticks", "Algebraic identity for every N.", S+"ta/weighted_moving_average.rs", S+"ta/symmetrically_weighted_moving_average.rs")
p("C26", "Dev and Stdev are computed on exactly the last N inputs",
  "For N >= 2, Dev(N) = mean |x - sma| of the last N inputs and Stdev(N) = sqrt(mean (x - sma)^2), or the n-1 variant when unbiased, None exactly when the SMA is None; both non-negative. Deviations below 1e-10 in absolute value are treated as 0 by Stdev.",
  "all N >= 2, sequences, ticks", "Every window.", S+"ta/dev.rs", S+"ta/stdev.rs")
p("C27", "Change is the difference to the non-zero value N bars ago",
  "Change(N) at tick t is x(t)-x(t-N) when both are present and x(t-N) is not 0, None otherwise (so the change from 0 is reported as missing, unlike PineScript's change).",
  "all N, sequences, ticks", "Every sequence incl. zeros.", S+"ta/change.rs")
p("C28", "Rate of change is the percentage difference to the value N bars ago",
  "Roc(N) at tick t is 100*(x(t)-x(t-N))/x(t-N) when both are present and x(t-N) is non-zero; None otherwise.",
  "all N, sequences, ticks", "Every sequence.", S+"ta/rate_of_change.rs")
p("C29", "Percent rank counts previous values not above the current one",
  "Prank(N) at tick t >= N is 100 * #{i in 1..N : x(t-i) present and x(t-i) <= x(t)} / N, None if x(t) is None or t < N; it lies in [0,100].",
  "all N, sequences, ticks", "Every window.", S+"ta/percent_rank.rs")
p("C30", "Highest/Lowest are the extreme of the last N present values",
  "Highest(N) at tick t >= N-1 is the maximum of the present values among the last N inputs (None if all missing); Lowest dually; every present input in the window is <= Highest and >= Lowest; before N-1 None.",
  "all N, sequences without NaN, ticks", "Every window.", S+"ta/highest.rs", S+"ta/lowest.rs", S+"ta/bars.rs")
p("C31", "HighestBars/LowestBars point at the extreme bar",
  "HighestBars(N) at tick t >= N-1 is -d where d in [0,N-1] and high(t-d) is the maximum high of the last N bars, choosing the oldest on ties (PineScript-like offset); LowestBars dually; None before.",
  "all data with highs/lows present, N, ticks", "Every window and tie pattern.", S+"ta/highest_bars.rs", S+"ta/lowest_bars.rs", S+"ta/bars.rs")
p("C32", "Stochastic lies in [0,100] and repeats its last value on flat windows",
  "Stoch(N) = 100*(src-lowest)/(highest-lowest) over the last N highs/lows; if src lies between them the result is in [0,100]; if highest = lowest the previous output is repeated; None before N bars or when src is None.",
  "all sequences, N, ticks", "Every history (the previous output matters).", S+"ta/stoch.rs")
p("C33", "True range is the greatest of the three ranges and ATR its RMA",
  "Tr at tick t >= 1 is max(high-low, |high-prev close|, |low-prev close|); at tick 0 it is high-low (handle_na) or None; it is >= high-low and, for high >= low, >= 0; Atr(N) equals Rma(N) of Tr; ATR is >= 0.",
  "all data with high/low/close present", "All data.", S+"ta/true_range.rs", S+"ta/average_true_range.rs")
p("C34", "RSI lies in [0,100] whenever it is a number",
  "Rsi(N) is None for the first N ticks, and afterwards 100-100/(1+up/down) with up/down the RMA of positive/negative changes; with floating point (IEEE binary64 with signed zeros, and any monotone odd rounding exact on small integers) the result is NaN or within [0,100]; in exact arithmetic it is NaN exactly while all prices so far are equal; 100 when there were only gains.",
  "all price histories", "All histories and all rounding behaviours.", S+"ta/relative_strength_index.rs")
p("C35", "Cross detection is exact and exclusive",
  "Cross returns Over at tick t iff a(t) > b(t) and a(t-1) <= b(t-1) with all four values present, Under iff a(t) < b(t) and a(t-1) >= b(t-1), never both; CrossOver/CrossUnder and the threshold variants agree with it; the first tick never crosses; two Over signals without intermediate None are separated by an Under-or-touch (a <= b) tick.",
  "all sequences with gaps", "All histories.", S+"ta/cross.rs", S+"ta/cross_over.rs", S+"ta/cross_under.rs", S+"ta/cross_threshold.rs", S+"ta/cross_over_threshold.rs", S+"ta/cross_under_threshold.rs")
p("C36", "At most one trade is open and it is the last one",
  "After any sequence of ticks and signals, every trade except possibly the last is closed; closed trades have entry and exit tick/price set, open ones have entry set and exit unset.",
  "all signal sequences, data, configs", "Unbounded histories.", S+"strategy/strategy.rs: Strategy::next", S+"strategy/trade.rs")
p("C37", "Trades are chronologically ordered and do not overlap",
  "entry_tick < exit_tick for each closed trade, and each trade enters no earlier than the previous one exits: at the same tick in continuous mode, strictly later in non-continuous mode.",
  "all runs", "Unbounded histories.", S+"strategy/strategy.rs")
p("C38", "Orders fill at the documented price and tick",
  "With on_bar_close=false a signal given at tick t fills at tick t+1 at its open; with on_bar_close=true it fills at tick t at its close. Each trade's entry was ordered by a signal of its direction and its exit by a signal of the opposite direction at exactly those ticks and prices; the last tick's signal never fills in next-open mode.",
  "all runs and both fill modes", "Unbounded histories.", S+"strategy/strategy.rs")
p("C39", "Continuous mode reverses, non-continuous mode alternates flat/in-position",
  "The trade list equals the one produced by the position state machine: flat+order d => open d; open d + order opposite => close and (continuous) open opposite at the same tick / (non-continuous) become flat; same-direction orders and None change nothing. In continuous mode directions alternate and the strategy is always in the market after the first fill.",
  "all signal sequences", "Refinement over unbounded sequences.", S+"strategy/strategy.rs")
p("C40", "Closed-trade statistics equal the fold over the trade list",
  "net_profit, gross_profit, gross_loss, long/short_net_profit, closed/winning/losing counts equal the corresponding sums/counts over closed trades in closing order (bit-exactly in floating point); wins+losses <= closed, with equality iff no closed pnl is 0 or NaN.",
  "all runs", "Unbounded histories.", S+"strategy/strategy.rs: StrategyMetrics")
p("C41", "Profit identities",
  "In exact arithmetic net_profit = gross_profit - gross_loss = long_net_profit + short_net_profit, and gross_profit, gross_loss >= 0.",
  "all runs on finite data", "Unbounded histories.", S+"strategy/strategy.rs")
p("C42", "Equity identity and mark to market",
  "After every tick equity = initial_capital + net_profit + open_profit; open_profit is 0 when no trade is open and the open trade's pnl at the current close otherwise.",
  "all runs", "Unbounded histories.", S+"strategy/strategy.rs", S+"strategy/trade.rs: trade_pnl")
p("C43", "Trade events fire exactly on the fill tick",
  "on_trade_entry (exit) is set after tick t iff a trade has entry_tick (exit_tick) t, and carries that trade.",
  "all runs", "Unbounded histories.", S+"strategy/strategy.rs: StrategyEvents")
p("C44", "Position sizing",
  "Without buy_with_equity every trade has fill size 1; with it the size is equity/price at the fill (0 when equity or price is not positive), where equity counts the realised profit including the trade closed at that very tick; the size is never negative and, in exact arithmetic, size*price = equity when both are positive.",
  "all runs", "Unbounded histories.", S+"strategy/strategy.rs", S+"strategy/trade.rs: fill_size")
p("C45", "Trade pnl is antisymmetric in direction and zero at the entry price",
  "trade_pnl(size, entry, price, long) = -trade_pnl(size, entry, price, short), is 0 at price = entry, and for positive size a long gains iff price > entry, a short iff price < entry.",
  "all sizes and prices", "All floats/reals.", S+"strategy/trade.rs: trade_pnl, Trade::pnl")
p("C46", "Equity metrics track running extremes",
  "EquityMetrics after any run: equity_min/max are the min/max of the initial capital and all equities so far; net_equity is initial capital + net profit of closed trades; net_equity_min/max its running extremes; hence min <= current <= max.",
  "all runs", "Unbounded histories.", S+"strategy/metrics/equity_metrics.rs")
p("C47", "Bar equity extremes while a trade is open and while flat",
  "While a trade is open, bar_open_profit_min/max are its profit at the bar's worst and best price, bar_equity_min/max add them to the net equity, and on bars with low <= close <= high they bracket the equity. While no trade is open they keep the profits of the last bar on which a trade was open (they are not reset to 0): bar_equity_min/max = net equity + those; before the first trade they equal the capital.",
  "all runs", "Needs arbitrary runs with open and flat periods.", S+"strategy/metrics/equity_metrics.rs: bar_open_profit_min")
p("C48", "Drawdown and run-up only grow and bound what happened",
  "TradingViewMetrics.max_drawdown and max_run_up are non-decreasing, non-negative and at least net_equity_max - bar_equity_min (bar_equity_max - net_equity_min) of every bar; Cobra equity_curve_max_dd is non-increasing and <= 0.",
  "all runs", "Unbounded histories.", S+"strategy/metrics/tradingview_metrics.rs", S+"strategy/metrics/cobra_metrics.rs")
p("C49", "Metrics report the strategy's own statistics and never divide by zero counts",
  "TradingViewMetrics copies the strategy's counters, percent_profitable is in [0,1], averages are the quotient by the count and 0 when the count is 0; equity_history has one entry per tick plus the initial, net_equity_history one per closed trade plus the initial.",
  "all runs", "Unbounded histories.", S+"strategy/metrics/tradingview_metrics.rs", S+"strategy/metrics/common.rs")
p("C50", "Returns measure the distance to the initial value",
  "Returns.delta after each value is value - initial value (the reference value is never moved, so it is the cumulative change, not the per-tick change); mean and stdev are the mean and standard deviation of all deltas so far (population; sample, 0 for one value, in the fast mode).",
  "all value histories", "History-dependent.", S+"strategy/metrics/returns.rs")
p("C51", "No look-ahead: outputs depend only on the past",
  "For every component, two data sets that agree on all ticks up to t give identical outputs (and trades) up to t.",
  "all data sets, all ticks, all modelled components", "A hyperproperty over pairs of unbounded data sets.", S+"core/context.rs", S+"ta/", S+"content/", S+"strategy/strategy.rs")
p("C52", "Trade direction encodings round-trip",
  "trade_direction_from_f64(Some(trade_direction_to_f64(d))) = d for every d, from_f64 accepts only 1 and -1, get_opposite is an involution without fixed points; Timeframe try_from/try_into are mutually inverse and reject >= 3.",
  "all directions, all floats, all integers", "All inputs.", S+"strategy/trade.rs", S+"core/timeframe.rs", S+"asset/timeframe.rs")
p("C53", "MACD, oscillators and channel indicators are the stated combinations of their moving averages and extremes",
  "Macd returns (maShort - maLong, signal MA of that difference); PriceOscillator/VolumeOscillator 100*(short-long)/long; AwesomeOscillator the change of short-long; Donchian (highest high, lowest low, their mean); BB%B and BBW from SMA and Stdev; CCI, CMO, Coppock, Vortex, UO, CMF, Chop, ChandeKroll, DMI, RVGI, RVI, StochRSI, CRSI, Williams likewise, on every tick of every data set on which no price is missing.",
  "all data, configs and ticks", "Compositional refinement for every history.", S+"content/")
p("C54", "Bounded oscillators stay in their advertised range",
  "On well-formed bars (low <= open,close <= high): Aroon in [100/N,100]; BOP and (volumes >= 0) CMF in [-1,1]; CMO in [-100,100]; Williams %R in [-100,0]; UO, +DI, -DI in [0,100]; Vortex lines and (positive prices, length >= 2, multiplier >= 0) Bollinger width >= 0; StochRSI and Connors RSI in [0,100] if some of the first N price changes is not 0; RVI in [0,100] if length <= ma_length + 2 or ma_length = 1; Choppiness (length >= 2) >= 0, and <= 100 if the close before the window lies within the window's price range; Donchian lower <= basis <= upper.",
  "all well-formed data", "All data.", S+"content/")
p("C55", "Signal strategies fire exactly at the stated crossings",
  "Every strategy with oversold/overbought thresholds returns Long exactly when its indicator rises through the oversold threshold (previous value <= threshold < value), otherwise Short exactly when it falls through the overbought threshold, else None; Williams %R is the exception: Long at a rise through overbought, Short at a fall through oversold; MACD uses 0 for both. With oversold <= overbought the two never compete. Vortex/relative vigor: Long/Short when the first line crosses over/under the second; DMI: the same, but only on ticks with adx above the strong-trend threshold; Aroon: after a crossing of the lines, Long/Short on the first tick with up/down at least 100 and the other below 50 (Aroon: in exact arithmetic).",
  "all indicator sequences (with missing values, NaN and infinities), all thresholds", "All histories.", S+"content/*: *Strategy")
p("C56", "When the ADX is a number",
  "On well-formed complete bars the ADX is missing exactly until +DI/-DI have been present for lensig ticks; afterwards it is NaN exactly if both lines were 0 on some tick so far (the code divides 0 by 0 and the smoothing keeps NaN for ever; for lensig = 1 only on that tick), and otherwise a number in [0,100]; it is a number for ever if one of the bars 1..len has a directional movement (len >= 2).",
  "all well-formed data, all lengths", "History-dependent.", S+"content/directional_movement_index.rs")
p("C57", "Component constructors reject zero lengths and never panic afterwards on complete data",
  "Every ta and content constructor panics iff one of its lengths is < 1 (RSI lengths and CMO: < 2); fed once per tick from the first bar with non-missing data, no ta component panics. The relative volatility index never panics for ma_length = 1; for ma_length >= 2 it panics exactly if the upward or the downward deviations, once ma_length of them were present in a row, have a gap: on complete prices never if length <= ma_length + 2, but for 2 <= ma_length and length >= ma_length + 3 on every price that does not rise for ma_length ticks and then rises.",
  "all lengths and histories", "Panic freedom over all histories.", S+"ta/", S+"content/relative_volatility_index.rs")
p("C58", "Ratio helpers return None/0 on zero denominators",
  "profit_factor, long_net_profit_ratio, avg_* and percent_profitable are None exactly on a zero denominator/count and otherwise the quotient; sharpe/sortino/omega are 0 on a zero denominator; returns(current, previous) = current/previous - 1 unless one is 0.",
  "all inputs", "All inputs.", S+"strategy/metrics/common.rs")
p("C59", "Cobra metrics: intra-trade drawdown and counts",
  "current_trade_max_drawdown is the maximum of 0 and net_equity - bar_equity_min over the ticks since (and including) the last exit; on an exit it is divided by the closed trade's entry price and enters the running maximum intra_trade_max_dd, which changes on no other tick; trades/profitable/profit_factor/net_profit_l_s_ratio are the runner's values after the last exit and 0 before the first.",
  "all runs", "Unbounded histories.", S+"strategy/metrics/cobra_metrics.rs")
p("C60", "TradingView Sharpe and Sortino ratios are functions of the net-equity history",
  "After every tick, with delta_k = net equity of tick k - initial capital: sharpe_ratio = (mean of all deltas so far - risk_free_rate) / population standard deviation of the deltas; sortino_ratio = the same over the population standard deviation of max(0, -delta); 0 when the denominator is 0.",
  "all runs on finite prices", "Unbounded histories.", S+"strategy/metrics/tradingview_metrics.rs", S+"strategy/metrics/returns.rs")
p("C61", "Cobra Omega, Sharpe and Sortino ratios are functions of the counted equity returns",
  "After every tick, with rho_k = equity_k / equity_(k-1) - 1 (0 if one is 0; equity_(-1) = capital) over the ticks so far whose year is not before returns_start_year (all if none is set): omega = sum max(0,rho) / sum max(0,-rho), sharpe = mean/stdev of rho, sortino = mean / stdev of max(0,-rho) (population deviation, sample if configured as estimated), each 0 for a zero denominator and multiplied by sqrt(365); 0 before the first counted tick.",
  "all runs on finite prices, all start years", "Unbounded histories.", S+"strategy/metrics/cobra_metrics.rs")
p("C62", "The Connors RSI streak counts consecutive rises and falls",
  "The value fed to the second RSI of ConnorsRsi is, on every tick before 2^53, exactly the signed streak length: 0 when the source is unchanged, k after k rises in a row (starting from a non-positive streak), -k after k falls in a row (starting from a non-negative one); a missing source counts as the code treats it, and the first tick counts as a fall.",
  "all source histories with missing values, NaN and infinities, all rounding behaviours that are exact on small integers", "All histories.", S+"content/connors_relative_strength_index.rs")
p("C63", "Warm-up: indicators never panic on complete bars and are silent exactly before their first possible tick",
  "On data without missing open/high/low/close/volume, every bundled indicator, with every length its constructor accepts (RVI: length <= ma_length + 2 or ma_length = 1) and every source, runs without a panic, and its outputs are missing before the tick its lengths determine; RSI, MACD, Awesome, Price Oscillator, Aroon, Donchian and Chande Kroll outputs are present on every tick from then on (the others give no value when their divisor is 0). Default configurations: Aroon 13, AO 34, %B/BBW/CMF/CCI 19, Chande Kroll 9, CMO 9, Choppiness 13, Connors RSI 100, Coppock 23, DMI 14 (ADX 27), Donchian 19, MACD 25 (signal 33), PO 20, RSI 14, vigor 12 (signal 15), RVI 14, StochRSI 16 (D 18), UO 28, VO 9, Vortex 14, Williams 13.",
  "all complete data of any length, all lengths and sources", "All histories and parameters.", S+"content/*.rs")
p("C64", "Every moving average is its textbook formula and stays within the values it has seen",
  "In exact arithmetic, for every kind (sma, ema, rma, swma) and length, the moving average of a series whose first value is at tick s is missing before the tick on which enough values have been seen, afterwards equals its textbook formula (window mean; mean of the first window smoothed by 2/(n+1); Wilder's running mean; weights 1,2,2,1 over 6), and lies between the least and the greatest value seen; of a constant series it is the constant.",
  "all input series beginning at any tick, all kinds and lengths", "All histories.", S+"ta/moving_average.rs", S+"ta/simple_moving_average.rs", S+"ta/exponential_moving_average.rs", S+"ta/running_moving_average.rs", S+"ta/symmetrically_weighted_moving_average.rs")
p("C65", "A backtest program runs every bar once, in order, and its parts do what they do alone",
  "for i in ctx.clone() over n bars runs its body exactly once per tick 0..n-1, in order, with the shared bar index at that tick. A program that loads a data frame with n >= 1 rows without null or NaN prices and runs indicator, strategy, runner and TradingView metrics in that loop never panics, has exactly n rounds, and each round returns the indicator's own output, the strategy's signal for it, the runner's state of a backtest with those signals and that backtest's metrics; nothing looks ahead. The project's RSI example goes Long exactly when the average gain overtakes the average loss and Short when it falls behind, trades exactly the position state machine's trades for those signals, and enters none before tick 16.",
  "all data frames, indicators, strategies, configurations", "All data and histories.", "example/src/main.rs", S+"core/context.rs", S+"strategy/strategy.rs")
p("C66", "Loading a data frame yields its cells, with null and NaN as missing values",
  "from_df succeeds iff the frame has the columns open, high, low, close, volume and time, at least one close, and every present time converts to a duration; the loaded columns have the frame's cells in order, null and NaN cells missing, so no loaded price is NaN; a direction column maps 1 to Long, -1 to Short and all else to none; merged columns pair the cells row by row; read_df reads exactly .parquet and .csv files and panics otherwise.",
  "all data frames", "All inputs.", S+"polars/series.rs", S+"polars/in_memory_data_provider.rs", S+"polars/dataframe.rs", S+"polars/io.rs")
p("C67", "Published fields say what the component was given and what it last computed",
  "The public configuration of every ta component (length, alpha, is_biased) is what the constructor was given and no call to next changes it. After every tick the RSI's data holds Wilder's average gain and loss of that tick (nothing before tick length), and the Aroon strategy's data the strength of each line on that tick (from 0 at 50 to 1 at 100, 0 unless the other line is below 50) and whether it still waits for a confirmation.",
  "all components, all inputs, all ticks", "All histories.", S+"ta/*.rs", S+"ta/relative_strength_index.rs", S+"content/aroon.rs")
p("C68", "In floating point the averages stay near the exact ones; only the running sums drift",
  "In binary64 (round to nearest even), for inputs bounded by M and with delta = 2^-53 M + 2^-1075: the exponential moving average is at every tick within 9 (len+1) delta of the exact one and Wilder's within 18 len delta, however many bars have passed; the linearly weighted average within (4 len + 3) delta and the symmetrically weighted one within 9 delta; the simple moving average, which keeps a running sum, within (4 n + 5) delta n bars after the first input, and its error is not forgotten (10^16, 1, 1, 1 with length 2 ends with 0.5, 0.5). The same for every rounding with relative error u and underflow error eta.",
  "all inputs, lengths and numbers of bars (up to 2^40; weighted: lengths up to 2^16), all roundings with bounded relative error", "Rounding errors accumulate over unbounded histories; a test sees one history.", S+"ta/sum.rs", S+"ta/simple_moving_average.rs", S+"ta/exponential_moving_average.rs", S+"ta/running_moving_average.rs", S+"ta/weighted_moving_average.rs", S+"ta/symmetrically_weighted_moving_average.rs")
p("C69", "Which advertised ranges survive rounding",
  "In binary64 (and under every monotone rounding exact on small integers), for finite bars with open and close between low and high: balance of power is NaN or in [-1, 1], Williams %R of the close NaN or in [-100, 0], Aroon up and down are in [0, 100], and the percent rank of any input (NaN and infinities included) is in [0, 100]. The stochastic oscillator is in [0, 100 (1 + 3*2^-53)] when ranges neither overflow nor underflow, and really exceeds 100 for value = high = 0.69, low = 0; Chaikin money flow leaves [-1, 1]: it is 2 for volumes 10^16, 1, 1 and length 2.",
  "all bars, inputs, lengths up to 2^53 and histories; all roundings of the class", "A range is a bound over every rounding of every history; the violations are at specific values no sampled test hits.", S+"ta/stoch.rs", S+"ta/percent_rank.rs", S+"content/balance_of_power.rs", S+"content/williams_percent_range.rs", S+"content/aroon.rs", S+"content/chaikin_money_flow.rs")
p("C70", "Windowed components forget everything older than their window",
  "Two instances fed different pasts, on different data and at different ticks, return the same as soon as their last n inputs are the same. In every arithmetic, bit for bit: n = length for the weighted averages, highest and lowest, length + 1 for change, rate of change and percent rank, 2 for crossings. In exact arithmetic: length for the mean, sum and deviations, Bollinger, CCI, Donchian, CMF, Aroon and Williams, length + 1 for CMO, Vortex and Choppiness, length + 6 for the relative vigor index with signal, longest period + 1 for the ultimate oscillator, length + longest rate of change for Coppock. Exponential and Wilder averages whose inputs agree from some tick on approach each other by the factor 1 - 2/(length+1) resp. 1 - 1/length per tick. In binary64 the simple moving average has no finite memory: fed 2^54 and then only ones, Sma(2) returns 0.5 for ever.",
  "all pairs of histories, ticks, data, lengths", "Relates any two unbounded histories.", S+"ta/*.rs", S+"content/*.rs")
p("C71", "Results do not depend on the currency, on stock splits or on the unit of volume",
  "Multiply all prices by k, all volumes by any factor, and the capital (and the risk-free return) accordingly. Averages, sums, mean deviation, change, highest/lowest, true range, ATR, Donchian, Chande Kroll, Awesome oscillator and MACD are multiplied by k; rate of change, percent rank, stochastic, RSI, crossings, Aroon, BoP, CMF, CMO, choppiness, CCI, Connors RSI, Coppock, DMI, price and volume oscillators, vigor index, StochRSI, ultimate oscillator, Vortex and Williams %R do not change; a strategy makes the same trades on the same ticks (it also panics on the same tick), amounts of money are multiplied and every ratio (Sharpe, Sortino, profit factor, percentages) is unchanged. m times the capital with buy_with_equity gives m times the quantities and m times the profit; a stock split leaves all money unchanged. Exactly so for every positive factor without rounding, and bit for bit for powers of two with 53-bit rounding as long as exponents do not overflow or underflow. The exceptions: Stdev treats deviations below 1e-10 as zero, so it (and Bollinger bands and the relative volatility index) depends on the unit of price; Cobra's intra-trade drawdown percentage is proportional to the traded quantity.",
  "all bars, configurations, signals, parameters, factors", "A relation between two runs over all data and all factors.", S+"ta/*.rs", S+"content/*.rs", S+"strategy/*.rs")
p("C72", "Long and short are treated alike",
  "With fixed order size (buy_with_equity = false): give a strategy the opposite signals (Long for Short) on the same bars and it makes the opposite trades at the same ticks and prices, panics on the same tick, and its profits are exactly negated: net and open profit change sign, gross profit and gross loss, winners and losers are exchanged. Negate also all prices (high becomes low) and all its money is the same and every equity and TradingView metric (drawdown, run-up, Sharpe, Sortino, averages, histories) is unchanged on every tick. Both hold with rounding (binary64 and every odd rounding), up to the sign of zero. Without rounding a strategy and its opposite together keep exactly twice the capital and the drawdown of one is the run-up of the other. With buy_with_equity the claim is false: a counterexample run is given.",
  "all bars, signals, configurations with fixed size, all ticks", "A relation between two runs over all data and signals.", S+"strategy/strategy.rs", S+"strategy/trade.rs", S+"strategy/metrics/equity_metrics.rs", S+"strategy/metrics/tradingview_metrics.rs")
p("C73", "With fixed order size the capital has no influence on trading",
  "With buy_with_equity = false a strategy with another initial_capital makes the same trades, holds the same orders, raises the same events, panics on the same tick and has the same metrics, in every arithmetic, except the equity, which is the other capital plus the same net and open profit: without rounding it differs by exactly the difference of the capitals.",
  "all bars, signals, capitals", "A relation between two runs over all data.", S+"strategy/strategy.rs")
p("C74", "The bars that count for the Cobra ratios are those from 1 January of the start year",
  "A bar's year is the Gregorian year (UTC) of its time in milliseconds since 1970. With start year y the bars that count for Omega, Sharpe and Sortino are exactly those whose time is at or after midnight of 1 January of y; with times that never decrease they are all bars from some tick on. The metrics panic with a start year exactly if some bar has no time that can be dated.",
  "all times below 2^63 ms, start years from 1970, runs", "All times and years; leap years only show over centuries.", S+"core/context.rs: Bar::datetime", S+"strategy/metrics/cobra_metrics.rs")
p("C75", "What the printed tables show and how they colour it",
  "print_overview, print_summary and Cobra's print show, for every run, the net profit, counts, percentages and quotients of the closed trades (percentages as 100 times the fraction, quotients by zero as 0), and the documented bands decide the colours. Three colours mislead: Cobra's 'Intra-trade Max DD' is green after every tick of every run (the figure is never negative, the bands are), also in binary64; the profit factor of a strategy without a losing trade is shown as 0 and red in both tables; and the overview compares the drawdown as an amount of money with 0.2, so for every run with a drawdown its colour is green in one currency and red in another although trades and drawdown percentage are the same.",
  "all runs, ticks, currencies", "All runs; the misleading colours are statements about every run.", S+"strategy/metrics/tradingview_metrics.rs: print_overview, print_summary", S+"strategy/metrics/cobra_metrics.rs: print", S+"utils/string.rs")
p("C76", "Snapshot assertions accept exactly equal series",
  "An ArraySnapshot assertion passes exactly if both series are equally long and at every index both values are missing or both are numbers less than 0.00001 apart (NaN and infinities never match, not even themselves); otherwise exactly the first differing index is reported. In debug mode only the lengths are checked. Tuples are compared component by component, except Option<(Option<f64>, Option<f64>)>, of which only the first component is compared: such a snapshot passes whatever the second series is.",
  "all series, element types, modes", "Quantifies over all series; the tests use these assertions themselves, so cannot check them.", S+"testing/array_snapshot.rs", S+"testing/comparison.rs")
p("C77", "An upside-down market turns the indicators upside down",
  "Negate every price of a market (so that highs become lows): averages, MACD, awesome oscillator, momentum (CMO), CCI, balance of power and relative vigor change their sign; true range, ATR, choppiness, ADX and the deviations do not change; Aroon up/down, +DI/-DI and the vortex lines change places; Donchian channels and Chande Kroll stops turn over; crossings and the signals of the strategies turn around. Without rounding, RSI, stochastic, stochastic RSI and ultimate oscillator become 100 minus themselves, Williams %R -100 minus itself, %B 1 minus itself, the money flow its negative, and rate of change, Coppock curve and price oscillator stay. A fixed-size program on the mirrored bars makes the mirrored trades and reports the same metrics on every tick.",
  "all bars with gaps, all lengths, sources (but volume), average kinds, thresholds, and all correctly rounded arithmetics", "Relates two runs of every component on all inputs; a swapped sign, a strict for a weak comparison or a bar kept from the wrong side in only one of two branches passes the tests on one market.", S+"ta/*.rs", S+"content/*.rs", S+"strategy/strategy.rs")
p("C78", "Components started late or called on some bars only",
  "A component created during the run computes what it would compute on data beginning there: sums, averages, deviations, RSI, Bollinger bands, CMO, CCI and money flow from any bar on, the others once their look-back (one bar for true-range based ones, three for the symmetrically weighted average and relative vigor, a window for highest/lowest, stochastic, Donchian, Aroon, Williams and the weighted average) lies behind; signals computed from it likewise. While no value is missing, leaving bars out changes nothing for sums, averages, deviations and bands; components without memory return at each bar what the full run returns there. Started too early, highest/lowest report extremes of incomplete windows; with values missing, mean and sum report as soon as the missing value is a window of bars away, whatever the calls. The strategy runner and all metrics called on some bars do what they do on the data of these bars, with ticks renamed.",
  "all data, start bars, call schedules, inputs with gaps, lengths and configurations, over any float arithmetic", "Tests drive every component on every bar from the first; a component that counts calls where it should count bars (or the reverse) passes all of them.", S+"common/window_validator.rs", S+"common/window_cache.rs", S+"core/context.rs:at_length", S+"ta/*.rs", S+"content/*.rs", S+"strategy/strategy.rs:next", S+"strategy/metrics/*.rs")
p("C79", "Nothing fails but what is missing",
  "A constructor panics only for an illegal parameter. After it, called at bars that never go back and with any inputs whatever, a component (every moving average, indicator, source, the strategy runner and the metrics) panics only because a value it needs is missing or the current bar lies outside the data: no assertion fails, no buffer of its own is indexed out of range and no unsigned subtraction goes below zero, so builds with and without overflow checks behave alike. If the bar index does go back, the subtraction does underflow.",
  "all data, inputs (missing, infinite, NaN), lengths accepted by the constructors, schedules of calls and numbers of calls, over any float arithmetic", "An underflow or index error may need one particular length, gap pattern and bar; release builds wrap silently, so a test sees only a wrong number.", S+"common/window_validator.rs", S+"common/window_cache.rs", S+"core/context.rs", S+"ta/*.rs", S+"content/*.rs", S+"strategy/strategy.rs", S+"strategy/metrics/*.rs")
p("C80", "The level of prices",
  "Add the same amount k to every price (without rounding): averages, highest/lowest, sources, Donchian channels and Chande Kroll stops rise by k; true range, ATR, deviations, stochastic, percent rank, RSI and 18 more indicators do not change at all, with missing values anywhere and panics on the same tick; a strategy trading one unit makes the same trades at prices k higher with the same profits, and the equity, TradingView and (except the drawdown inside trades) Cobra metrics are the same. What divides by a price (ROC, Coppock, Connors RSI, price oscillator, Bollinger width) and Change (finding 1) do depend on the level. Highest, lowest, their distance, percent rank, Aroon and crossings only compare, so that any order-preserving change of scale leaves them alone, in any arithmetic.",
  "all data with gaps, inputs, lengths, parameters, amounts k", "A relation between two runs over all data and all k.", S+"ta/*.rs", S+"content/*.rs", S+"strategy/*.rs")
p("C81", "Equity is position times price change",
  "Signals alone determine the position (flat, one unit long, one unit short) after every tick, and it is the position in the books. When each trade is one unit (without rounding), the equity after every tick is the capital plus the sum of each position times the price change while it was held, the last one up to the close. So profits are linear in the prices and additive in the position, runs with the same positions have the same profit whatever their orders, no profit or loss exceeds the distance the price has travelled, and buy and hold earns the close minus the entry price.",
  "all complete bars, signal sequences, configurations, ticks", "A closed form for all signal sequences and prices.", S+"strategy/strategy.rs:Strategy.next", S+"strategy/trade.rs")
p("C82", "Compounding",
  "Signals alone determine the timetable of the trades (directions, entry and exit ticks), and the data at those ticks their prices. When each trade is for the whole equity (without rounding), the capital plus the net profit is the capital multiplied by the growth factor of every closed trade (exit over entry; two minus that for a short trade), and the equity is that with the open trade at the bar's close. The equity is proportional to the capital and does not depend on the unit of the prices; who only buys is never ruined; a short trade never doubles the equity and is worth nothing exactly when the price has at least doubled; once the capital is lost, equity and net profit never change again and every open trade has size 0.",
  "all complete bars, signal sequences, configurations, ticks", "A closed form for all signal sequences and prices.", S+"strategy/strategy.rs:Strategy.next", S+"strategy/trade.rs")
p("C83", "Rounding errors in the books of a backtest",
  "In binary64 (and any arithmetic with bounded rounding error): with one unit per trade, the reported net profit and the equity stay within 6 n (2^-53 W + 2^-1075) and 6 (n+2) (2^-53 W + 2^-1075) of the exact ones (capital plus position times price change), where n is the number of closed trades and W bounds capital plus booked profit plus twice the highest price; whatever the sizes, every reported sum is that close to the exact sum of the recorded profits, so that net = gross profit - gross loss and net = long + short hold up to 6 n (2^-53 W + 2^-1075). With equity-sized trades the equity stays within a relative error that grows linearly in the number of closed trades, (n+1) 48 (1+rho) 2^-53 B / w0, of the exact product of the growth factors, where rho bounds how far price ratios exceed one and the exact equity stays between w0 and B.",
  "all bars, signals, configurations, run lengths up to 2^40", "An error bound over all price sequences and run lengths.", S+"strategy/strategy.rs:Strategy.next", S+"strategy/trade.rs")
p("C84", "A market that does not move",
  "On bars whose four prices never change (volumes arbitrary), in exact arithmetic: every moving average, extreme and channel equals the price, deviations and ranges are 0, differences of averages are 0, indicators that divide by a range, a deviation or a sum of changes are missing (the RSI family NaN); so no strategy on a price indicator ever signals, whatever its thresholds, lengths and price source, and a backtest program of any configuration runs through without panic, trades nothing and keeps its equity at the initial capital. In IEEE binary64 the same holds without error for the twelve programs whose indicator does not subtract an average from a price or from another average. For the others it is false: in binary64 the three-bar average of 0.1, 0.1, 0.1 exceeds 0.1, the default CCI of a market at 0.1 reads below -66 on every bar, and the default MACD strategy goes long in a market that stays at 0.49.",
  "all prices, volumes, lengths, sources, thresholds, configurations, run lengths", "Quantifies over all indicator lengths, thresholds and run lengths; a test has one flat sample.", S+"content", S+"ta", S+"strategy/strategy.rs:Strategy.next")
p("C85", "What is shown of the trades",
  "Right after every tick the label of the last trade says long or short while a position is held, which side was left on the tick on which it was left, and No Trade while flat; its triangle points up exactly on ticks on which something was bought, down exactly on ticks on which something was sold, and is otherwise a dash in the colour of the position, the positions being those the signals alone determine. Looking back at any trade and any tick nothing panics; exits are shown on their tick, entries only while the trade is open, and in continuous mode exit labels never appear live. The equity plot has the capital and then one point per bar, the net equity and drawdown plots one point per closed trade.",
  "all configurations, signals, data, run lengths, trades, ticks looked at", "Quantifies over all histories of signals; panic freedom and the coincidence with buying and selling are about every run.", S+"strategy/trade.rs:to_colored_string,get_triangle_colored_string", S+"strategy/metrics/tradingview_metrics.rs:text_plot")
p("C86", "Averages are linear and keep the order of their inputs",
  "Without rounding every moving average of p u + q w is p times the average of u plus q times that of w; if one input is never above another, neither is its average, so the average of any price source lies between the averages of lows and highs. In IEEE arithmetic EMA (any smoothing factor in [0,1]), RMA, WMA and SWMA keep the order of their inputs exactly, with every rounding; highest and lowest too. SMA does not: after a large price has left its window its running sum is too small, so the average of prices that were never lower can be lower.",
  "all inputs, pairs of inputs, coefficients, lengths, kinds, start bars, run lengths, correctly rounded arithmetics", "Relates the outputs on two inputs, for all pairs of inputs.", S+"ta/simple_moving_average.rs", S+"ta/exponential_moving_average.rs", S+"ta/running_moving_average.rs", S+"ta/weighted_moving_average.rs", S+"ta/symmetrically_weighted_moving_average.rs", S+"ta/moving_average.rs", S+"ta/highest.rs", S+"ta/lowest.rs")
p("C87", "A market that only rises, or only falls",
  "While open, high, low and close only rise: the price lies above its averages and a shorter average above a longer one; RSI, CMO, percent rank and the relative volatility index are 100, the Aroon lines 100 and 100/n, the minus line of the DMI is 0 and the ADX 100, the stochastic RSI has no value; MACD, price oscillator and Coppock curve are positive. While prices only fall it is the mirror image. So every strategy that waits for a crossing (RSI, CMO, RVI, stochastic RSI with any thresholds; MACD, price oscillator, Coppock at 0; DMI, Aroon, vortex) gives no signal, opens no position and ends with the initial capital: it misses the whole trend. In IEEE arithmetic the RSI of a price that never falls is exactly 100 (or NaN), of one that never rises exactly 0 (or NaN), the Aroon lines are constant, and neither strategy trades.",
  "all rising or falling markets, lengths, thresholds, price sources, configurations, run lengths; for RSI and Aroon all correctly rounded arithmetics", "A property of all monotone markets and all thresholds.", S+"ta/relative_strength_index.rs", S+"ta/moving_average.rs", S+"content/aroon.rs", S+"content/directional_movement_index.rs", S+"content/macd.rs", S+"content/chande_momentum_oscillator.rs", S+"content/vortex.rs", S+"content/coppock_curve.rs", S+"strategy/strategy.rs")
p("C88", "A backtest sees its signals only through the position they produce",
  "Two sequences of signals that lead to the same position after every tick give the same trades, statistics, events and reports after every tick, in both modes, with both fill prices and however trades are sized; one run succeeds exactly if the other does. In continuous mode the position is the most recent signal, so repeating a signal does nothing and repeated signals can be left out. Outside continuous mode a repeated signal is not ignored: after a close it opens a new trade.",
  "all signal sequences, data (with missing values), configurations, run lengths, arithmetics", "A statement about all pairs of signal sequences.", S+"strategy/strategy.rs", S+"strategy/metrics/tradingview_metrics.rs", S+"strategy/metrics/cobra_metrics.rs")
p("C89", "The two reports agree where they overlap",
  "The TradingView and the Cobra report of the same run keep the same equity figures (those of an equity component of its own), and after every tick they show the same number of closed trades, the same share of profitable trades and the same profit factor, although one recomputes them on every tick and the other only when a trade closes.",
  "all runs, risk-free rates, estimators, start years, ticks, arithmetics", "Two incremental computations must agree after every prefix of every run.", S+"strategy/metrics/tradingview_metrics.rs", S+"strategy/metrics/cobra_metrics.rs", S+"strategy/metrics/equity_metrics.rs")
p("C90", "Without gaps, filling at the next open is filling at the close one bar later",
  "If every bar opens where the one before closed, the run that fills at the next open has after tick t+1 exactly the trades that the run that fills at the close has after tick t: the same prices, sizes and profits, all ticks one later. Its events are the same, and all statistics except open profit and equity, which are marked at the current close. After tick 0 it has no trade.",
  "all gapless data (missing prices included), signals, modes, sizings, capitals, run lengths, arithmetics", "Relates two complete runs tick by tick.", S+"strategy/strategy.rs", S+"strategy/trade.rs")
p("C91", "Which side a crossing strategy is on",
  "A strategy that goes long when its indicator rises through a level and short when it falls through it is, from its first signal on, on the side of the level where the indicator is: in continuous mode the position is long while the indicator is above and short while it is below, at every later tick. With two levels (Williams %R) it is long above the upper and short below the lower one once the indicator has been on the other side, and in between it keeps its side. Vortex, relative vigor and MACD are the same with two lines or zero. With one unit per trade the equity is the capital plus each price change times the sign of the indicator before it. A tick on which the indicator has no value hides the crossing: no signal then and none on the next tick.",
  "all indicator series that are numbers once they start, levels, ticks, run lengths, the thirteen threshold strategies and MACD, Williams, vortex and relative vigor", "A statement about the position at every tick of every run, by induction over the history of signals.", S+"strategy/strategy.rs", S+"ta/cross.rs", S+"content/price_oscillator.rs", S+"content/williams_percent_range.rs")
p("C92", "Averages, MACD and threshold strategies in floats: from the bars to the signals, the position and the equity",
  "In binary64 (and any arithmetic with bounded rounding error) the rounding errors of whole chains are bounded for every run: a price source is within 5 roundings of the exact combination of the prices, an average of a line known up to e within e plus its own roundings (for EMA, RMA and SWMA these depend on the length only, not on the run), and the MACD line and signal line of any averages and sources within an explicit number of roundings of the exact lines, with the same warm-up. A threshold or crossing strategy fed with a line known up to e gives exactly the signals of the exact line as long as that line keeps farther than e from the thresholds, or the two lines from each other. So the MACD backtest program in binary64 gives on every tick the signals of the same program in exact arithmetic unless the exact line comes within its error of 0, and two runs with the same signals, one in binary64 and one exact, have equities within 6 (n+2) roundings of each other on every tick, n the number of closed trades.",
  "all bars of finite prices, sources, kinds and lengths of averages, thresholds, configurations with one unit per trade, run lengths up to 2^30", "An error bound through a chain of stateful computations for all price sequences and run lengths, and equality of two complete runs.", S+"core/context.rs", S+"common/src.rs", S+"ta/moving_average.rs", S+"content/macd.rs", S+"strategy/strategy.rs", S+"ta/cross.rs")
p("C93", "The RSI, the stochastic RSI and the example program in floats",
  "In binary64 the RSI of any length n and source is within 200 (13 + 54 n) roundings divided by m, plus 1500 u, of the exact RSI wherever the average gain and loss add up to at least m, although the code computes it through a quotient that may overflow or divide by zero. The project's example program in binary64 goes Long and Short exactly where the exact average gain overtakes the average loss or falls behind, unless the exact RSI comes within that error of 50, and its equity stays within 6 (n+2) roundings of 1000 plus what that position earns; the signals likewise for any length, source and thresholds. The stochastic of a line against its own extremes is within 1610 e / d + 101 u of the exact one, e the error of the line and d the least distance of the extremes, so both lines of the stochastic RSI are within an explicit error of the exact lines and its program signals what the exact program signals unless the line comes too near to a threshold.",
  "all bars of finite prices, sources, lengths from 2, thresholds, run lengths up to 2^29", "An error bound through a quotient that can overflow, for all price sequences, and equality of two complete runs.", S+"ta/relative_strength_index.rs", S+"content/relative_strength_index.rs", S+"ta/stoch.rs", S+"content/stoch_relative_strength_index.rs", "example/src/main.rs")
p("C94", "Extremes, ranges, channels and oscillators in floats",
  "In binary64 (and any arithmetic with bounded rounding error) highest and lowest of a window carry an input's error on unchanged, the true range is within 2 roundings of the exact one and the ATR of length n within 2 + 54 n, so the Donchian channel's bands are the exact ones and its basis within 3 roundings, and the Chande-Kroll stops within 3 + (9 + 54 p) F, F the size of the factor. Williams %R, balance of power, the awesome, price and volume oscillators are within an explicit error of the exact line, given a lower bound on the divisor where there is one, and their backtest programs signal on every tick what the exact program signals unless the exact line comes within that error of a threshold.",
  "all bars of finite prices, sources, kinds and lengths of averages, thresholds, run lengths", "An error bound through a chain of stateful computations for all price sequences and run lengths, and equality of two complete runs.", S+"ta/highest.rs", S+"ta/lowest.rs", S+"ta/true_range.rs", S+"ta/average_true_range.rs", S+"content/donchian_channels.rs", S+"content/chande_kroll_stop.rs", S+"content/williams_percent_range.rs", S+"content/balance_of_power.rs", S+"content/awesome_oscillator.rs", S+"content/price_oscillator.rs", S+"content/volume_oscillator.rs")
p("C95", "Running sums and their ratios in floats",
  "In binary64 (and any arithmetic with bounded rounding error) a running sum of the last n values known up to e is within n e plus roundings that grow with the number of bars; so the Chande momentum and ultimate oscillators, Chaikin money flow, vortex and relative vigor are within an explicit error of the exact lines given a lower bound on the sum they divide by, and the programs of those that have a strategy signal what the exact programs signal unless a line comes too near to a threshold, or the two lines to each other.",
  "all bars of finite prices, sources, lengths, thresholds, run lengths", "The error of a running sum accumulates over the whole history; equality of two complete runs.", S+"ta/sum.rs", S+"content/chande_momentum_oscillator.rs", S+"content/ultimate_oscillator.rs", S+"content/chaikin_money_flow.rs", S+"content/vortex.rs", S+"content/relative_vigor_index.rs")
p("C96", "Rate of change, weighted average, Coppock curve, mean deviation and commodity channel index in floats",
  "In binary64 (and any arithmetic with bounded rounding error) the rate of change and the weighted average are within an explicit error of the exact ones, and with them the Coppock curve on prices bounded away from 0, and the mean deviation and the commodity channel index while the mean deviation is bounded away from 0. The programs of the Coppock curve and the commodity channel index signal what the exact ones signal unless the line comes too near to a threshold.",
  "all bars of finite prices, sources, lengths, thresholds, run lengths", "An error bound through a chain of stateful computations for all price sequences and run lengths, and equality of two complete runs.", S+"ta/rate_of_change.rs", S+"ta/weighted_moving_average.rs", S+"ta/dev.rs", S+"content/coppock_curve.rs", S+"content/commodity_channel_index.rs")
p("C97", "Aroon in floats signals exactly as in exact arithmetic",
  "Both Aroon lines are within 202 roundings of the exact percentages 100 (n - age) / n for any finite bars, and the Aroon program in binary64 signals on every tick exactly what the exact one signals, with no condition on how near anything comes to a threshold: it goes long on a bar with the highest high when the lowest low is more than half the window old and the order of the two ages has changed since the last signal, and short the other way round.",
  "all finite bars of any size, lengths up to 2^40, run lengths", "Equality of two complete runs for every price sequence.", S+"content/aroon.rs", S+"ta/highest_bars.rs", S+"ta/lowest_bars.rs", S+"ta/cross.rs")
p("C98", "The standard deviation and the Bollinger bands in floats",
  "In binary64 (and any arithmetic with bounded rounding error and rounded square roots) the population standard deviation of the last n numbers up to M is on every bar within (20 + 6 N + 12 n) u (M + 1) + 1.02e-10 of the textbook one, and the sample one within twice that, although the code squares rounded deviations and takes deviations below 1e-10 for 0; the 1.02e-10 is all this cut can cost. So Bollinger %B is within an explicit error of the textbook %B while the bands are at least m apart, and the band width while the mean is at least m away from 0; the %B program signals on every tick what the textbook line signals, in floats and in exact arithmetic alike, unless the line comes within that error of a threshold.",
  "all bars of finite prices, sources, lengths from 2, positive multipliers, thresholds, run lengths", "An error bound through a square root of a sum of rounded squares, for all price sequences and run lengths, and equality of two complete runs.", S+"ta/stdev.rs", S+"ta/simple_moving_average.rs", S+"content/bollinger_bands_pb.rs", S+"content/bollinger_bands_width.rs", S+"testing/comparison.rs")
p("C99", "The directional movement index in floats",
  "In binary64 (and any arithmetic with bounded rounding error), on well-formed bars with prices up to M where the smoothed true range is at least m, +DI and -DI of length n are on every bar within 606 G / m + 303 u of the exact lines, G being 2 + 54 n roundings, and where the two add up to at least w the ADX is within an explicit multiple of that error divided by w; all begin on the same bars as the exact lines. This needs that on each bar the rise of the high and the fall of the low are the same, or neither is positive, or they differ by more than 4 roundings, because otherwise rounding could count the wrong one. The program signals on every tick what the exact program signals (the crossings of the two lines while the ADX is above the threshold) unless the lines come within twice that error of each other or the ADX within its error of the threshold.",
  "all well-formed bars of finite prices, lengths, thresholds, run lengths", "An error bound through three running means, two quotients and a comparison, for all price sequences, and equality of two complete runs.", S+"content/directional_movement_index.rs", S+"ta/true_range.rs", S+"ta/running_moving_average.rs", S+"common/fixnan.rs")
p("C100", "The Connors RSI in floats",
  "In binary64 (and any arithmetic with bounded rounding error), on N bars whose chosen price (open, high, low or close) is at most M and at least m0 in size, the Connors RSI of lengths n, m and k is on every bar within 68 (E / a + F / b) + 2000 u of the exact one and begins on the same bar as it: a is a lower bound of average gain plus average loss of the price, b one of those of its up/down streak, E and F are 3 + 54 n roundings of the price and 3 + 54 m roundings of N. The streak itself is counted without error, and for a price that changes on every bar b can be 1. This needs that for each bar and each of the k before it the two rates of change come from the same two prices, or are both 0, or differ by more than an explicit rounding error, because otherwise rounding could change a rank. The program signals on every tick what the exact program signals unless the exact line comes within that error of a threshold.",
  "all bars of finite prices, lengths, thresholds, run lengths", "An error bound through two running means, a quotient and a count of comparisons, for all price sequences, and equality of two complete runs.", S+"content/connors_relative_strength_index.rs", S+"ta/relative_strength_index.rs", S+"ta/percent_rank.rs", S+"ta/rate_of_change.rs")
p("C101", "The relative volatility index in floats",
  "In binary64 (and any arithmetic with bounded rounding error and rounded square roots), the relative volatility index of lengths n (standard deviation, from 2) and m (averages), with n <= m + 2 or m = 1, of a bar's open, high, low or close up to M on N bars begins on bar n + m - 2 and is on every bar within 1212 E / a + 303 u of the textbook index 100 U / (U + D): U and D are exponential averages of the textbook standard deviation on rising resp. other bars, a is a lower bound of U + D, and E = (80 + 19 N + 12 n + 28 m) u (M + 1) + 1.02e-10. This needs that a price either repeats or changes by more than half the smallest positive float. The program signals on every tick what the textbook index signals, in floats and in exact arithmetic alike, unless the index comes within that error of a threshold.",
  "all bars of finite prices, lengths with n <= m + 2 or m = 1, thresholds, run lengths", "An error bound through a square root, two exponential averages with gaps and a quotient, for all price sequences, and equality of two complete runs.", S+"content/relative_volatility_index.rs", S+"ta/stdev.rs", S+"ta/exponential_moving_average.rs")
p("C102", "The choppiness index in floats",
  "In binary64 (and any arithmetic with bounded rounding error and a decimal logarithm with bounded error g), on N well-formed bars of prices up to M, the choppiness index of length n from 2 begins on bar n - 1 and is on every bar within 1200 e / log10 n + u of the textbook index 100 log10 (sum of the true ranges / (highest high - lowest low)) / log10 n, where e = (1 + Q) (2 n (62 + 12 N) (u M + the smallest float's half) / m + 3 u) + (g + u) (2 + log10 Q), Q = 2 n M / m, and m is a lower bound of the distance from the lowest low to the highest high of a window. If the logarithm is correctly rounded, g is one rounding.",
  "all well-formed bars of finite prices, lengths from 2, run lengths, errors of the logarithm", "An error bound through a running sum, a quotient and a logarithm, for all price sequences.", S+"content/choppiness_index.rs", S+"ta/sum.rs", S+"ta/average_true_range.rs", S+"ta/highest.rs", S+"ta/lowest.rs")
p("C103", "The reported figures of a backtest in floats",
  "For a backtest with one unit per trade and finite prices, every figure of the two reports is close to what exact arithmetic would report, with explicit bounds that grow linearly with the number of bars: equity, net equity, their peaks and troughs, the extreme equities of the bar, maximal drawdown and run-up and their percentages, gross profit and loss, profit by side, the averages per trade, the percentages of the capital, the profit factor and the other quotients where their denominators stay away from zero. The numbers of winning and losing trades are exactly the true ones: in binary64 the sign of a difference of two prices is never lost.",
  "all bars with finite prices, all signals and rules, all lengths, all float formats that round as binary64 does",
  "Rounding errors depend on every price and on the order of the trades; the bounds are for all of them.",
  S+"strategy/metrics/tradingview_metrics.rs", S+"strategy/metrics/cobra_metrics.rs", S+"strategy/metrics/equity_metrics.rs", S+"strategy/metrics/common.rs")

p("C104", "Means, standard deviations and the Sharpe and Sortino ratios in floats",
  "Fed one by one, Mean, Var and Stdev (not in the fast mode) report in any arithmetic bit for bit what the list functions give for everything fed so far. Of n floats within d of numbers up to M, with E = d + n u (M + 1), the mean is within 4 E and the standard deviation within 21 E of the exact ones. For a backtest with one unit per trade on finite prices, the reported Sharpe ratio is within (1 + 2 W / a) (3 G / a + u) of the exact (mean - r) / standard deviation of the distances of the net equity from the capital, where a is a lower bound of that deviation and G = 150 (N + 4) u (W + 1); likewise the Sortino ratio with the deviation of the shortfalls.",
  "all histories of finite values, all lengths, all bars of finite prices and all signals, all risk free rates", "Rounding errors accumulate over an unbounded history and pass through squares, a root and a quotient.", S+"statistics/mean.rs", S+"statistics/var.rs", S+"statistics/stdev.rs", S+"statistics/common.rs", S+"strategy/metrics/returns.rs", S+"strategy/metrics/tradingview_metrics.rs", S+"strategy/metrics/common.rs: sharpe_ratio, sortino_ratio")
p("C105", "Omega, Sharpe, Sortino and the drop within trades of the Cobra report in floats",
  "In any arithmetic, without the fast mode, the Omega, Sharpe and Sortino ratios of the Cobra report are those of the list of the float returns of the equity on the ticks that count so far (all, or those from the start year on), times the root of 365; zero while no tick counts. For a backtest with one unit per trade on finite prices whose equity stays at or above m, with Q = 1 + W / m and E an error of the order N u W Q / m, Sharpe and Sortino are within 62 (1 + Q / a) (63 E / a + u) of the same ratios of the exact returns, and Omega within 62 (1 + N Q / a) (12 N E / a + u), whenever the exact divisor is at least a. The largest drop within a closed trade, as a part of its entry price, is within (1 + 2 M / m) (3 G / m + u) of the exact one, G = 13 (N + 4) (u W + eta), when all entry prices are at least m.",
  "all bars of finite prices, all signals and lengths, all start years, all rounded arithmetics", "Returns are quotients of rounded sums; the errors pass through an unbounded history of squares, a root and two more quotients.", S+"strategy/metrics/cobra_metrics.rs", S+"strategy/metrics/common.rs: returns, omega_ratio, sharpe_ratio, sortino_ratio", S+"statistics/mean.rs", S+"statistics/stdev.rs")
p("C106", "The reports of a backtest that reinvests, in floats",
  "When every position is for the whole equity, prices change by at most the fraction r within a trade and the exact equity stays between w and B, then after every tick the equity of both reports, its maximum and minimum so far and the net equity are within G = (N + 1) k (1 + r) B of the exactly compounded values, k = 48 (1 + r) u B / w; the maximal drawdown of the equity curve in the Cobra report is within 3 (1 + (1 + r) B / cap) (3 G / cap + u) of the exact one; and its Sharpe, Sortino and Omega ratios are near those of the exact returns with the bounds of C105 for this G, whenever the exact divisor is at least some a large against the error.",
  "all bars of finite prices, all signals and lengths, all start years, all rounded arithmetics", "The size of every position depends on the rounded equity before it, so the errors compound over an unbounded number of trades before they reach the report.", S+"strategy/strategy.rs", S+"strategy/metrics/equity_metrics.rs", S+"strategy/metrics/cobra_metrics.rs", S+"strategy/metrics/tradingview_metrics.rs", S+"strategy/metrics/common.rs")
p("C107", "The fast variance and standard deviation in floats",
  "The fast mode of the variance (Welford's recurrence), alone and selected by the flag, gives the same float on every tick whatever is fed, and the fast standard deviation gives its square root. Fed at most 2^53 floats, each within delta of a number of at most B, the fast variance is 0 on the first tick and from then on within 150 B (delta + N u B) of the sample variance of all numbers so far; where the sample standard deviation is at least a and that bound at most a^2, the fast standard deviation is within 168 / a times B (delta + N u B) of it.",
  "all input series of at most 2^53 finite floats below the overflow limit, all rounded arithmetics", "The recurrence feeds its rounded mean and sum of squares back on every tick; whether the errors stay proportional to the number of inputs or grow is not visible in a test of a few values.", S+"statistics/welfords_var.rs", S+"statistics/welfords_stdev.rs", S+"statistics/var.rs", S+"statistics/stdev.rs")
p("C108", "Variances and standard deviations are never negative, in floats",
  "Fed at most 2^53 binary64 numbers of at most 2^1021, the fast variance and the fast standard deviation are on every tick at least 0 and never NaN. Fed the same finite float again and again, the fast variance is exactly 0 on every tick, for every lawful rounding. Fed any floats, the default variance and standard deviation are NaN or at least 0 on every tick; fed the same float three times the default variance need not be 0 in binary64.",
  "all input series of at most 2^53 floats", "The fast mode adds the product of two rounded distances; that they never have opposite signs is a fact about every pair of floats and every count, and a negative variance would turn the standard deviation, and the ratios made of it, into NaN.", S+"statistics/welfords_var.rs", S+"statistics/welfords_stdev.rs", S+"statistics/var.rs", S+"statistics/stdev.rs", S+"statistics/common.rs")
p("C109", "The Cobra ratios in the fast mode, in floats",
  "With estimated set, the Omega, Sharpe and Sortino values of the Cobra report are zero while no bar counts (start year) and afterwards, in any arithmetic, those of the list of the float returns on the bars that count, with the fast standard deviation as divisor of Sharpe and Sortino. From the second counted bar on, in a backtest whose equity never falls below some m large against the rounding of the equity, the Sharpe and Sortino values are near the annualised ratios of the exact returns with the sample standard deviation (N - 1) as divisor, wherever that deviation is at least some a large against the error; from the first counted bar on the Omega value is near the annualised ratio of the exact gains and losses.",
  "all backtests of at most 2^53 bars with prices below the overflow limit, all start years, all rounded arithmetics", "The fast mode divides by a deviation made by a recurrence that rounds on every tick; the error of the quotient depends on the whole history of returns.", S+"strategy/metrics/cobra_metrics.rs", S+"strategy/metrics/common.rs", S+"statistics/stdev.rs", S+"statistics/welfords_var.rs")
p("C110", "The reports of a strategy before its first signal, in floats",
  "As long as a strategy has given no signal, on any bars, after every tick, in every lawful rounded arithmetic: the equity is the capital; the Cobra report, in the default and in the fast mode and with any start year, shows Omega, Sharpe and Sortino exactly 0 (not NaN, not a rounding residue), no drop of the equity curve, no drop within a trade, no trades and 0 for its trade statistics; the TradingView report shows Sharpe and Sortino exactly 0 for any risk free rate, no drawdown, no run-up, all profits, counts and averages 0, a net equity history that holds only the capital and an equity history that holds nothing but the capital; the percentages are 0 too unless the capital is 0.",
  "all bars, numbers of at most 2^53 bars, finite capitals, start years, risk free rates, both modes, all lawful roundings", "Ratios of a flat equity divide 0 by 0; whether the guards catch it needs the deviation of the zero returns to be exactly 0 after any number of rounded steps, in both modes.", S+"strategy/metrics/cobra_metrics.rs", S+"strategy/metrics/tradingview_metrics.rs", S+"strategy/metrics/equity_metrics.rs", S+"strategy/metrics/common.rs")
out = os.path.join(os.path.dirname(os.path.abspath(__file__)), "..", "properties.jsonl")
with open(out, "w") as f:
    for x in P: f.write(json.dumps(x) + "\n")
print(len(P))
