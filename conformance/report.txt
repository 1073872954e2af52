ok   strategy_test.rs:empty_on_bar_close_continous
ok   strategy_test.rs:trades_history_on_bar_close_continous
ok   strategy_test.rs:trades_history_next_bar_open_continous
ok   strategy_test.rs:trades_history_on_bar_close_intermittent
ok   strategy_test.rs:trades_history_next_bar_open_intermittent
ok   strategy_test.rs:equity_empty_on_bar_close_continous
ok   strategy_test.rs:equity_on_bar_close_continous
ok   strategy_test.rs:equity_on_next_bar_open_continous
ok   strategy_test.rs:equity_on_bar_close_intermittent
ok   strategy_test.rs:equity_next_bar_open_intermittent
ok   window_validator_test.rs:length_1
ok   window_validator_test.rs:length_5
ok   window_validator_test.rs:length_1_and_none
ok   window_validator_test.rs:length_3_and_none
ok   window_validator_test.rs:_length_3_and_none_mixed
ok   fixnan_test.rs:all_non_nan
ok   fixnan_test.rs:all_nan
ok   fixnan_test.rs:mixed
ok   mean_test.rs:test_mean
ok   welfords_stdev_test.rs:stdev
ok   welfords_var_test.rs:variance
73 unit tests agree, 0 disagree
ok   ta/sma/length_1_close.csv: 4151 rows
ok   ta/ema/length_1_close.csv: 4151 rows
ok   ta/rma/length_1_close.csv: 4151 rows
ok   ta/sma/length_2_close.csv: 4140 rows
ok   ta/ema/length_2_close.csv: 4140 rows
ok   ta/rma/length_2_close.csv: 4140 rows
ok   ta/rsi/length_2_close.csv: 4141 rows
ok   ta/sma/length_3_close.csv: 4140 rows
ok   ta/ema/length_3_close.csv: 4140 rows
ok   ta/rma/length_3_close.csv: 4140 rows
ok   ta/rsi/length_3_close.csv: 4141 rows
ok   ta/sma/length_7_close.csv: 4140 rows
ok   ta/ema/length_7_close.csv: 4140 rows
ok   ta/rma/length_7_close.csv: 4140 rows
ok   ta/rsi/length_7_close.csv: 4141 rows
ok   ta/sma/length_14_close.csv: 4133 rows
ok   ta/ema/length_14_close.csv: 4140 rows
ok   ta/rma/length_14_close.csv: 4140 rows
ok   ta/rsi/length_14_close.csv: 4141 rows
ok   ta/sma/length_350_close.csv: 4140 rows
ok   ta/ema/length_350_close.csv: 4140 rows
ok   ta/rma/length_350_close.csv: 4140 rows
ok   ta/rsi/length_350_close.csv: 4141 rows
ok   ta/wma/length_1_close.csv: 4156 rows
ok   ta/sum/length_1_close.csv: 4157 rows
ok   ta/dev/length_1_close.csv: 4152 rows
ok   ta/stdev/length_1_biased.csv: 4152 rows
ok   ta/stdev/length_1_unbiased.csv: 4152 rows
ok   ta/prank/length_1_close.csv: 4156 rows
ok   ta/change/length_1_close.csv: 4156 rows
ok   ta/roc/length_1_close.csv: 4156 rows
ok   ta/wma/length_2_close.csv: 4156 rows
ok   ta/sum/length_2_close.csv: 4157 rows
ok   ta/dev/length_2_close.csv: 4152 rows
ok   ta/stdev/length_2_biased.csv: 4152 rows
ok   ta/stdev/length_2_unbiased.csv: 4152 rows
ok   ta/prank/length_2_close.csv: 4156 rows
ok   ta/change/length_2_close.csv: 4156 rows
ok   ta/roc/length_2_close.csv: 4156 rows
ok   ta/wma/length_3_close.csv: 4156 rows
ok   ta/sum/length_3_close.csv: 4157 rows
ok   ta/dev/length_3_close.csv: 4152 rows
ok   ta/stdev/length_3_biased.csv: 4152 rows
ok   ta/stdev/length_3_unbiased.csv: 4152 rows
ok   ta/prank/length_3_close.csv: 4156 rows
ok   ta/change/length_3_close.csv: 4156 rows
ok   ta/roc/length_3_close.csv: 4156 rows
ok   ta/wma/length_14_close.csv: 4156 rows
ok   ta/sum/length_14_close.csv: 4157 rows
ok   ta/dev/length_14_close.csv: 4152 rows
ok   ta/stdev/length_14_biased.csv: 4150 rows
ok   ta/stdev/length_14_unbiased.csv: 4150 rows
ok   ta/prank/length_14_close.csv: 4156 rows
ok   ta/wma/length_365_close.csv: 4156 rows
ok   ta/sum/length_365_close.csv: 4157 rows
ok   ta/dev/length_365_close.csv: 4152 rows
ok   ta/stdev/length_365_biased.csv: 4150 rows
ok   ta/stdev/length_365_unbiased.csv: 4150 rows
ok   ta/prank/length_365_close.csv: 4156 rows
ok   ta/change/length_365_close.csv: 4156 rows
ok   ta/roc/length_365_close.csv: 4156 rows
ok   ta/prank/length_100_close.csv: 4156 rows
ok   ta/prank/roc/length_14_with_roc_length_7_close.csv: 4156 rows
ok   ta/prank/roc/length_100_with_roc_length_7_close.csv: 4156 rows
ok   ta/prank/roc/length_100_with_roc_length_2_close.csv: 4156 rows
ok   ta/prank/roc/length_100_with_roc_length_1_close.csv: 4156 rows
ok   ta/sum/atr/length_1_with_atr_length_14.csv: 4157 rows
ok   ta/sum/atr/length_14_with_atr_length_14.csv: 4157 rows
ok   ta/sum/atr/length_1_with_atr_length_1.csv: 4157 rows
ok   ta/sum/atr/length_14_with_atr_length_1.csv: 4157 rows
ok   ta/rsi/sma/length_2_with_sma_length_14_close.csv: 4141 rows
ok   ta/rsi/sma/length_14_with_sma_length_2_close.csv: 4141 rows
ok   ta/rsi/sma/length_14_with_sma_length_14_close.csv: 4141 rows
ok   ta/swma/close.csv: 4157 rows
ok   ta/atr/length_1.csv: 4151 rows
ok   ta/atr/length_2.csv: 4151 rows
ok   ta/atr/length_14.csv: 4135 rows
ok   ta/tr/with_handle.csv: 4135 rows
ok   ta/tr/without_handle.csv: 4135 rows
ok   ta/bars/highest/length_14_high.csv: 4135 rows
ok   ta/bars/lowest/length_14_low.csv: 4135 rows
ok   ta/bars/highest_bars/length_14.csv: 4135 rows
ok   ta/bars/lowest_bars/length_14.csv: 4135 rows
ok   ta/stoch/length_1_close_high_low.csv: 4151 rows
ok   ta/stoch/length_1_close_close_close.csv: 4151 rows
ok   ta/stoch/length_2_close_high_low.csv: 4151 rows
ok   ta/stoch/length_2_close_close_close.csv: 4151 rows
ok   ta/stoch/length_3_close_high_low.csv: 4151 rows
ok   ta/stoch/length_3_close_close_close.csv: 4151 rows
ok   ta/stoch/length_14_close_high_low.csv: 4151 rows
ok   ta/stoch/length_14_close_close_close.csv: 4151 rows
ok   ta/cross/over/rsi/length_14_close.csv: 4141 rows
ok   ta/cross/under/rsi/length_14_close.csv: 4141 rows
ok   ta/cross/over/rsi/length_14_close.csv: 4141 rows
ok   ta/cross/under/rsi/length_14_close.csv: 4141 rows
ok   content/aroon/indicator/length_14.csv: 4134 rows
ok   content/awesome_oscillator/indicator/short_length_5_long_length_34_hl2.csv: 4150 rows
ok   content/balance_of_power/indicator/default.csv: 4150 rows
ok   content/bollinger_bands_pb/indicator/length_20_sma_mult_2_close.csv: 4150 rows
ok   content/bollinger_bands_width/indicator/length_20_sma_mult_2_close.csv: 4150 rows
ok   content/chaikin_money_flow/indicator/length_14.csv: 4150 rows
ok   content/chande_kroll_stop/indicator/p_10_x_1_q_9.csv: 4150 rows
ok   content/chande_momentum_oscillator/indicator/length_14_close.csv: 4151 rows
ok   content/choppiness_index/indicator/length_14.csv: 4151 rows
ok   content/vortex/indicator/length_14.csv: 4157 rows
ok   content/chande_momentum_oscillator/indicator/length_2_close.csv: 4151 rows
ok   content/choppiness_index/indicator/length_2.csv: 4151 rows
ok   content/vortex/indicator/length_2.csv: 4157 rows
ok   content/commodity_channel_index/indicator/length_14_hlc3_sma.csv: 4152 rows
ok   content/connors_relative_strength_index/indicator/length_3_up_down_len_2_roc_length_100_close.csv: 4156 rows
ok   content/coppock_curve/indicator/long_roc_length_14_short_roc_length_11_ma_length_10_close.csv: 4157 rows
ok   content/directional_movement_index/indicator/length_14_lensig_14.csv: 4152 rows
ok   content/directional_movement_index/indicator/length_3_lensig_3.csv: 4152 rows
ok   content/directional_movement_index/indicator/length_14_lensig_3.csv: 4152 rows
ok   content/directional_movement_index/indicator/length_3_lensig_14.csv: 4152 rows
ok   content/donchian_channels/indicator/length_14.csv: 4152 rows
ok   content/macd/indicator/short_length_12_long_length_26_ema_close.csv: 4197 rows
ok   content/price_oscillator/indicator/long_length_21_short_length_10_long_ma_sma_short_ma_sma_close.csv: 4152 rows
ok   content/relative_strength_index/indicator/length_14_open.csv: 4141 rows
ok   content/relative_strength_index/strategy/length_14_close.csv: 4141 rows
ok   content/relative_vigor_index/indicator/length_14.csv: 4157 rows
ok   content/relative_vigor_index/indicator/length_1.csv: 4157 rows
ok   content/relative_vigor_index/indicator/length_2.csv: 4157 rows
ok   content/relative_vigor_index/indicator/length_3.csv: 4157 rows
ok   content/relative_vigor_index/indicator/length_365.csv: 4157 rows
ok   content/relative_volatility_index/indicator/length_14_ma_14_ema_close.csv: 4152 rows
ok   content/stoch_relative_strength_index/indicator/length_14_stoch_length_14_k_3_d_3_close.csv: 4151 rows
ok   content/stoch_relative_strength_index/indicator/length_2_stoch_length_2_k_3_d_3_close.csv: 4152 rows
ok   content/stoch_relative_strength_index/indicator/length_2_stoch_length_2_k_14_d_14_close.csv: 4152 rows
ok   content/ultimate_oscillator/indicator/short_length_7_mid_length_14_long_length_28.csv: 4158 rows
ok   content/ultimate_oscillator/indicator/short_length_1_mid_length_1_long_length_1.csv: 4158 rows
ok   content/ultimate_oscillator/indicator/short_length_30_mid_length_15_long_length_7.csv: 4158 rows
ok   content/volume_oscillator/indicator/short_length_5_long_length_10_ema.csv: 4157 rows
ok   content/volume_oscillator/indicator/short_length_1_long_length_1_ema.csv: 4157 rows
ok   content/williams_percent_range/indicator/length_14_close.csv: 4158 rows
ok   content/williams_percent_range/indicator/length_1_close.csv: 4158 rows
ok   content/williams_percent_range/indicator/length_2_close.csv: 4158 rows
ok   strategy/metrics/next_bar_continous.csv: 4192 rows
138 fixtures agree, 0 disagree
