{
 "claims": [
  {
   "property": "C01",
   "status": "proved",
   "theorems": [
    "Pace.C01_iteration",
    "Pace.C01_index",
    "Pace.C01_in_memory"
   ],
   "note": ""
  },
  {
   "property": "C02",
   "status": "proved",
   "theorems": [
    "Pace.C02_bar_accessors",
    "Pace.C02_is_up",
    "Pace.C02_after_iteration"
   ],
   "note": ""
  },
  {
   "property": "C03",
   "status": "proved",
   "theorems": [
    "Pace.C03_look_back",
    "Pace.C03_no_look_ahead",
    "Pace.C03_ranges"
   ],
   "note": ""
  },
  {
   "property": "C04",
   "status": "proved",
   "theorems": [
    "Pace.C04_new",
    "Pace.C04_from_values",
    "Pace.C04_context"
   ],
   "note": ""
  },
  {
   "property": "C05",
   "status": "proved",
   "theorems": [
    "Pace.C05_fixnan",
    "Pace.C05_latest_unique"
   ],
   "note": ""
  },
  {
   "property": "C06",
   "status": "proved",
   "theorems": [
    "Pace.C06_all",
    "Pace.C06_last",
    "Pace.C06_first",
    "Pace.C06_is_filled",
    "Pace.C06_get",
    "Pace.C06_unwrapped"
   ],
   "note": ""
  },
  {
   "property": "C07",
   "status": "proved",
   "theorems": [
    "Pace.C07_size",
    "Pace.C07_size_unbounded",
    "Pace.C07_get"
   ],
   "note": ""
  },
  {
   "property": "C08",
   "status": "proved",
   "theorems": [
    "Pace.C08_incremental_cache"
   ],
   "note": ""
  },
  {
   "property": "C09",
   "status": "proved",
   "theorems": [
    "Pace.C09_window_validator",
    "Pace.C09_new",
    "Pace.C09_true_before_filled"
   ],
   "note": ""
  },
  {
   "property": "C10",
   "status": "proved",
   "theorems": [
    "Pace.C10_position"
   ],
   "note": ""
  },
  {
   "property": "C11",
   "status": "proved",
   "theorems": [
    "Pace.C11_plain",
    "Pace.C11_combined",
    "Pace.C11_mean"
   ],
   "note": ""
  },
  {
   "property": "C12",
   "status": "proved",
   "theorems": [
    "Pace.C12_ps",
    "Pace.C12_div_finite",
    "Pace.C12_div_rounded"
   ],
   "note": ""
  },
  {
   "property": "C13",
   "status": "proved",
   "theorems": [
    "Pace.C13_mean"
   ],
   "note": ""
  },
  {
   "property": "C14",
   "status": "proved",
   "theorems": [
    "Pace.C14_var",
    "Pace.C14_stdev",
    "Pace.C14_list_functions",
    "Pace.C14_nonneg",
    "Pace.C14_stdev_sq"
   ],
   "note": ""
  },
  {
   "property": "C15",
   "status": "proved",
   "theorems": [
    "Pace.C15_welford",
    "Pace.C15_welford_stdev"
   ],
   "note": ""
  },
  {
   "property": "C16",
   "status": "proved",
   "theorems": [
    "Pace.C16_fast_is_sample_variance",
    "Pace.C16_relation",
    "Pace.C16_modes_differ"
   ],
   "note": ""
  },
  {
   "property": "C17",
   "status": "proved",
   "theorems": [
    "Pace.C17_total",
    "Pace.C17_max",
    "Pace.C17_min"
   ],
   "note": ""
  },
  {
   "property": "C18",
   "status": "proved",
   "theorems": [
    "Pace.C18_range",
    "Pace.C18_cases",
    "Pace.C18_idempotent",
    "Pace.C18_monotone"
   ],
   "note": ""
  },
  {
   "property": "C19",
   "status": "proved",
   "theorems": [
    "Pace.C19_range",
    "Pace.C19_up",
    "Pace.C19_up_cases",
    "Pace.C19_down",
    "Pace.C19_centered"
   ],
   "note": ""
  },
  {
   "property": "C20",
   "status": "proved",
   "theorems": [
    "Pace.C20_nonpos_min",
    "Pace.C20_pos_min",
    "Pace.C20_pos_min_overshoots"
   ],
   "note": ""
  },
  {
   "property": "C21",
   "status": "proved",
   "theorems": [
    "Pace.C21_sma",
    "Pace.C21_nan_is_permanent"
   ],
   "note": ""
  },
  {
   "property": "C22",
   "status": "proved",
   "theorems": [
    "Pace.C22_sum",
    "Pace.C22_nan_is_permanent"
   ],
   "note": ""
  },
  {
   "property": "C23",
   "status": "proved",
   "theorems": [
    "Pace.C23_ema_unseeded",
    "Pace.C23_ema",
    "Pace.C23_recurrence",
    "Pace.C23_weights",
    "Pace.C23_between",
    "Pace.C23_alpha",
    "Pace.C23_ema_one",
    "Pace.C23_float"
   ],
   "note": ""
  },
  {
   "property": "C24",
   "status": "proved",
   "theorems": [
    "Pace.C24_ema_panics_iff",
    "Pace.C24_example_panic",
    "Pace.C24_window_components"
   ],
   "note": ""
  },
  {
   "property": "C25",
   "status": "proved",
   "theorems": [
    "Pace.C25_wma",
    "Pace.C25_swma"
   ],
   "note": ""
  },
  {
   "property": "C26",
   "status": "proved",
   "theorems": [
    "Pace.C26_dev",
    "Pace.C26_stdev",
    "Pace.C26_cut",
    "Pace.C26_nonneg",
    "Pace.C26_length_one"
   ],
   "note": ""
  },
  {
   "property": "C27",
   "status": "proved",
   "theorems": [
    "Pace.C27_change",
    "Pace.C27_zero_is_missing"
   ],
   "note": ""
  },
  {
   "property": "C28",
   "status": "proved",
   "theorems": [
    "Pace.C28_roc_complete",
    "Pace.C28_roc"
   ],
   "note": ""
  },
  {
   "property": "C29",
   "status": "proved",
   "theorems": [
    "Pace.C29_prank",
    "Pace.C29_range"
   ],
   "note": ""
  },
  {
   "property": "C30",
   "status": "proved",
   "theorems": [
    "Pace.C30_ieee",
    "Pace.C30_highest",
    "Pace.C30_lowest",
    "Pace.C30_bounds",
    "Pace.C30_float"
   ],
   "note": ""
  },
  {
   "property": "C31",
   "status": "proved",
   "theorems": [
    "Pace.C31_ieee",
    "Pace.C31_highest_bars",
    "Pace.C31_lowest_bars"
   ],
   "note": ""
  },
  {
   "property": "C32",
   "status": "proved",
   "theorems": [
    "Pace.C32_stoch",
    "Pace.C32_stoch_range",
    "Pace.C32_close_between"
   ],
   "note": ""
  },
  {
   "property": "C33",
   "status": "proved",
   "theorems": [
    "Pace.C33_atr_bars",
    "Pace.C33_atr_nonneg_ieee",
    "Pace.C33_tr",
    "Pace.C33_tr_first",
    "Pace.C33_atr_exact",
    "Pace.C33_atr_is_rma",
    "Pace.C33_atr_nonneg"
   ],
   "note": ""
  },
  {
   "property": "C34",
   "status": "proved",
   "theorems": [
    "Pace.C34_rsi_nan_iff",
    "Pace.C34_rsi_moving",
    "Pace.C34_rsi_range_ieee",
    "Pace.C34_rsi_range_binary64",
    "Pace.C34_rsi_range",
    "Pace.C34_rsi_exact",
    "Pace.C34_rsi_exact_range",
    "Pace.C34_rsi_only_gains",
    "Pace.C34_rsi_constant"
   ],
   "note": ""
  },
  {
   "property": "C35",
   "status": "proved",
   "theorems": [
    "Pace.C35_cross",
    "Pace.C35_cross_over_under",
    "Pace.C35_threshold",
    "Pace.C35_over_separated"
   ],
   "note": ""
  },
  {
   "property": "C36",
   "status": "proved",
   "theorems": [
    "Pace.C36_new_trade",
    "Pace.C36_entry_exit",
    "Pace.C36_one_open",
    "Pace.C36_active"
   ],
   "note": ""
  },
  {
   "property": "C37",
   "status": "proved",
   "theorems": [
    "Pace.C37_order"
   ],
   "note": ""
  },
  {
   "property": "C38",
   "status": "proved",
   "theorems": [
    "Pace.C38_bar_close",
    "Pace.C38_next_open"
   ],
   "note": ""
  },
  {
   "property": "C39",
   "status": "proved",
   "theorems": [
    "Pace.C39_refines",
    "Pace.C39_first_opposite",
    "Pace.C39_continuous_alternates",
    "Pace.C39_continuous_in_market",
    "Pace.C39_flat_ignores_nothing",
    "Pace.C39_first_order"
   ],
   "note": ""
  },
  {
   "property": "C40",
   "status": "proved",
   "theorems": [
    "Pace.C40_statistics",
    "Pace.C40_pnl",
    "Pace.C40_counts"
   ],
   "note": ""
  },
  {
   "property": "C41",
   "status": "proved",
   "theorems": [
    "Pace.C41_nonneg_ieee",
    "Pace.C41_identities",
    "Pace.C41_nonneg"
   ],
   "note": ""
  },
  {
   "property": "C42",
   "status": "proved",
   "theorems": [
    "Pace.C42_start",
    "Pace.C42_equity"
   ],
   "note": ""
  },
  {
   "property": "C43",
   "status": "proved",
   "theorems": [
    "Pace.C43_events"
   ],
   "note": ""
  },
  {
   "property": "C44",
   "status": "proved",
   "theorems": [
    "Pace.C44_nonneg_ieee",
    "Pace.C44_size",
    "Pace.C44_exact",
    "Pace.C44_nonneg"
   ],
   "note": ""
  },
  {
   "property": "C45",
   "status": "proved",
   "theorems": [
    "Pace.C45_antisymmetric_ieee",
    "Pace.C45_zero_at_entry_ieee",
    "Pace.C45_sign_ieee",
    "Pace.C45_exact",
    "Pace.C45_antisymmetric",
    "Pace.C45_zero_at_entry",
    "Pace.C45_sign"
   ],
   "note": ""
  },
  {
   "property": "C46",
   "status": "proved",
   "theorems": [
    "Pace.C46_values",
    "Pace.C46_extremes",
    "Pace.C46_net_extremes",
    "Pace.C46_start",
    "Pace.C46_net_equity_exact"
   ],
   "note": ""
  },
  {
   "property": "C47",
   "status": "proved",
   "theorems": [
    "Pace.C47_open",
    "Pace.C47_flat",
    "Pace.C47_no_trade",
    "Pace.C47_bracket",
    "Pace.C47_stale_when_flat"
   ],
   "note": ""
  },
  {
   "property": "C48",
   "status": "proved",
   "theorems": [
    "Pace.C48_monotone_ieee",
    "Pace.C48_cobra_monotone_ieee",
    "Pace.C48_values",
    "Pace.C48_cobra_values",
    "Pace.C48_monotone",
    "Pace.C48_cobra_monotone"
   ],
   "note": ""
  },
  {
   "property": "C49",
   "status": "proved",
   "theorems": [
    "Pace.C49_percent_range_ieee",
    "Pace.C49_percent_range_binary64",
    "Pace.C49_start",
    "Pace.C49_counters",
    "Pace.C49_ratios",
    "Pace.C49_histories",
    "Pace.C49_percent_range"
   ],
   "note": ""
  },
  {
   "property": "C50",
   "status": "proved",
   "theorems": [
    "Pace.C50_start",
    "Pace.C50_delta",
    "Pace.C50_stats"
   ],
   "note": ""
  },
  {
   "property": "C51",
   "status": "proved",
   "theorems": [
    "Pace.C51_outputs",
    "Pace.C51_pipe",
    "Pace.C51_prefix",
    "Pace.C51_ta",
    "Pace.C51_ta_bars",
    "Pace.C51_content",
    "Pace.C51_any_averages",
    "Pace.C51_content_bars",
    "Pace.C51_strategy",
    "Pace.C51_metrics",
    "Pace.C51_with_src",
    "Pace.C51_backtest"
   ],
   "note": ""
  },
  {
   "property": "C52",
   "status": "proved",
   "theorems": [
    "Pace.C52_from_f64_ieee",
    "Pace.C52_roundtrip_ieee",
    "Pace.C52_from_f64",
    "Pace.C52_roundtrip",
    "Pace.C52_opposite",
    "Pace.C52_timeframe"
   ],
   "note": ""
  },
  {
   "property": "C53",
   "status": "proved",
   "theorems": [
    "Pace.C53_macd_any",
    "Pace.C53_price_oscillator_any",
    "Pace.C53_volume_oscillator_any",
    "Pace.C53_awesome_oscillator_any",
    "Pace.C53_macd",
    "Pace.C53_price_oscillator",
    "Pace.C53_volume_oscillator",
    "Pace.C53_awesome_oscillator",
    "Pace.C53_balance_of_power",
    "Pace.C53_donchian",
    "Pace.C53_williams",
    "Pace.C53_bollinger_percent_b",
    "Pace.C53_bollinger_width",
    "Pace.C53_cci",
    "Pace.C53_coppock",
    "Pace.C53_cmo",
    "Pace.C53_cmf",
    "Pace.C53_chande_kroll",
    "Pace.C53_choppiness",
    "Pace.C53_vortex",
    "Pace.C53_ultimate_oscillator",
    "Pace.C53_stoch_rsi",
    "Pace.C53_relative_vigor",
    "Pace.C53_relative_volatility",
    "Pace.C53_dmi",
    "Pace.C53_aroon",
    "Pace.C53_donchian_exact",
    "Pace.C53_williams_exact",
    "Pace.C53_bollinger_percent_b_exact",
    "Pace.C53_bollinger_width_exact",
    "Pace.C53_cci_exact",
    "Pace.C53_cmo_exact",
    "Pace.C53_cmf_exact",
    "Pace.C53_vortex_exact",
    "Pace.C53_ultimate_oscillator_exact",
    "Pace.C53_relative_vigor_exact",
    "Pace.C53_choppiness_exact",
    "Pace.C53_connors",
    "Pace.C53_macd_exact",
    "Pace.C53_awesome_oscillator_exact",
    "Pace.C53_price_oscillator_exact",
    "Pace.C53_volume_oscillator_exact",
    "Pace.C53_coppock_exact",
    "Pace.C53_chande_kroll_exact",
    "Pace.C53_defaults_source",
    "Pace.C53_price_oscillator_default",
    "Pace.C53_defaults_bars",
    "Pace.C53_aroon_exact",
    "Pace.C53_stoch_rsi_exact",
    "Pace.C53_relative_volatility_exact",
    "Pace.C53_dmi_moving",
    "Pace.C53_connors_exact",
    "Pace.C53_defaults_rest",
    "Pace.C53_dmi_exact",
    "Pace.C53_ma"
   ],
   "note": ""
  },
  {
   "property": "C54",
   "status": "proved",
   "theorems": [
    "Pace.C54_donchian",
    "Pace.C54_williams",
    "Pace.C54_cmo",
    "Pace.C54_cmf",
    "Pace.C54_relative_vigor",
    "Pace.C54_balance_of_power",
    "Pace.C54_ultimate_oscillator",
    "Pace.C54_vortex",
    "Pace.C54_aroon",
    "Pace.C54_stoch_rsi",
    "Pace.C54_connors",
    "Pace.C54_bollinger_width",
    "Pace.C54_relative_volatility",
    "Pace.C54_choppiness",
    "Pace.C54_price_oscillator",
    "Pace.C54_volume_oscillator",
    "Pace.C54_volume_oscillator_exceeds",
    "Pace.C54_dmi"
   ],
   "note": ""
  },
  {
   "property": "C55",
   "status": "proved",
   "theorems": [
    "Pace.C55_defaults",
    "Pace.C55_dmi_default",
    "Pace.C55_threshold",
    "Pace.C55_williams",
    "Pace.C55_macd",
    "Pace.C55_no_conflict",
    "Pace.C55_cross",
    "Pace.C55_dmi",
    "Pace.C55_aroon_any",
    "Pace.C55_aroon"
   ],
   "note": ""
  },
  {
   "property": "C56",
   "status": "proved",
   "theorems": [
    "Pace.C56_adx",
    "Pace.C56_nan_forever",
    "Pace.C56_number"
   ],
   "note": ""
  },
  {
   "property": "C57",
   "status": "proved",
   "theorems": [
    "Pace.C57_equity_metrics",
    "Pace.C57_tradingview_metrics",
    "Pace.C57_cobra_metrics",
    "Pace.C57_constructors",
    "Pace.C57_swma_constructor",
    "Pace.C57_gap_tolerant",
    "Pace.C57_recursive",
    "Pace.C57_bars",
    "Pace.C57_content_constructors",
    "Pace.C57_relative_volatility_iff",
    "Pace.C57_relative_volatility_panics",
    "Pace.C57_relative_volatility_one",
    "Pace.C57_relative_volatility_safe",
    "Pace.C57_strategy",
    "Pace.C57_strategy_complete"
   ],
   "note": ""
  },
  {
   "property": "C58",
   "status": "proved",
   "theorems": [
    "Pace.C58_optional_ieee",
    "Pace.C58_optional",
    "Pace.C58_ratios",
    "Pace.C58_returns",
    "Pace.C58_averages",
    "Pace.C58_percents"
   ],
   "note": ""
  },
  {
   "property": "C59",
   "status": "proved",
   "theorems": [
    "Pace.C59_start",
    "Pace.C59_intra_trade",
    "Pace.C59_counts"
   ],
   "note": ""
  },
  {
   "property": "C60",
   "status": "proved",
   "theorems": [
    "Pace.C60_tradingview_ratios"
   ],
   "note": ""
  },
  {
   "property": "C61",
   "status": "proved",
   "theorems": [
    "Pace.C61_cobra_ratios"
   ],
   "note": ""
  },
  {
   "property": "C62",
   "status": "proved",
   "theorems": [
    "Pace.C62_streak",
    "Pace.C62_unchanged",
    "Pace.C62_rises",
    "Pace.C62_falls",
    "Pace.C62_streak_ieee"
   ],
   "note": ""
  },
  {
   "property": "C63",
   "status": "proved",
   "theorems": [
    "Pace.C63_rsi",
    "Pace.C63_bollinger",
    "Pace.C63_cci",
    "Pace.C63_coppock",
    "Pace.C63_cmo",
    "Pace.C63_connors",
    "Pace.C63_stoch_rsi",
    "Pace.C63_relative_volatility",
    "Pace.C63_williams",
    "Pace.C63_macd",
    "Pace.C63_awesome_oscillator",
    "Pace.C63_price_oscillator",
    "Pace.C63_volume_oscillator",
    "Pace.C63_aroon",
    "Pace.C63_cmf",
    "Pace.C63_chande_kroll",
    "Pace.C63_choppiness",
    "Pace.C63_donchian",
    "Pace.C63_relative_vigor",
    "Pace.C63_ultimate_oscillator",
    "Pace.C63_vortex",
    "Pace.C63_dmi",
    "Pace.C63_balance_of_power",
    "Pace.C63_defaults"
   ],
   "note": ""
  },
  {
   "property": "C64",
   "status": "proved",
   "theorems": [
    "Pace.C64_average",
    "Pace.C64_constant"
   ],
   "note": ""
  },
  {
   "property": "C65",
   "status": "proved",
   "theorems": [
    "Pace.C65_loop",
    "Pace.C65_program",
    "Pace.C65_frame",
    "Pace.C65_ends",
    "Pace.C65_no_look_ahead",
    "Pace.C65_default_config",
    "Pace.C65_example"
   ],
   "note": ""
  },
  {
   "property": "C66",
   "status": "proved",
   "theorems": [
    "Pace.C66_loads",
    "Pace.C66_cells",
    "Pace.C66_no_nan",
    "Pace.C66_bars",
    "Pace.C66_trade_dir",
    "Pace.C66_merge",
    "Pace.C66_read_df",
    "Pace.C66_extension",
    "Pace.C66_files"
   ],
   "note": ""
  },
  {
   "property": "C67",
   "status": "proved",
   "theorems": [
    "Pace.C67_configuration",
    "Pace.C67_constructed",
    "Pace.C67_rsi_data",
    "Pace.C67_aroon_data"
   ],
   "note": ""
  },
  {
   "property": "C68",
   "status": "proved",
   "theorems": [
    "Pace.C68_sum",
    "Pace.C68_sma",
    "Pace.C68_ema",
    "Pace.C68_rma",
    "Pace.C68_wma",
    "Pace.C68_swma",
    "Pace.C68_averages_binary64",
    "Pace.C68_weighted_binary64"
   ],
   "note": ""
  },
  {
   "property": "C69",
   "status": "proved",
   "theorems": [
    "Pace.C69_balance_of_power",
    "Pace.C69_williams",
    "Pace.C69_percent_rank",
    "Pace.C69_aroon",
    "Pace.C69_stoch",
    "Pace.C69_cmf_is_2",
    "Pace.C69_stoch_over_100",
    "Pace.C69_ranges_binary64",
    "Pace.C69_stoch_binary64"
   ],
   "note": ""
  },
  {
   "property": "C70",
   "status": "proved",
   "theorems": [
    "Pace.C70_window",
    "Pace.C70_cross",
    "Pace.C70_rolling",
    "Pace.C70_source",
    "Pace.C70_bars",
    "Pace.C70_forgets",
    "Pace.C70_highest_needs_two",
    "Pace.C70_sma_drifts",
    "Pace.C70_sma_never_forgets"
   ],
   "note": ""
  },
  {
   "property": "C71",
   "status": "proved",
   "theorems": [
    "Pace.C71_strategy",
    "Pace.C71_backtest",
    "Pace.C71_equity",
    "Pace.C71_tradingview",
    "Pace.C71_cobra",
    "Pace.C71_currency",
    "Pace.C71_capital",
    "Pace.C71_split",
    "Pace.C71_exact",
    "Pace.C71_averages",
    "Pace.C71_ratios",
    "Pace.C71_thresholds",
    "Pace.C71_price_indicators",
    "Pace.C71_pure_indicators",
    "Pace.C71_zero_crossing",
    "Pace.C71_program",
    "Pace.C71_stdev_depends_on_units",
    "Pace.C71_stdev",
    "Pace.C71_binary",
    "Pace.C71_hardware",
    "Pace.C71_example"
   ],
   "note": ""
  },
  {
   "property": "C72",
   "status": "proved",
   "theorems": [
    "Pace.C72_opposite",
    "Pace.C72_opposite_backtest",
    "Pace.C72_mirror",
    "Pace.C72_mirror_backtest",
    "Pace.C72_mirror_metrics",
    "Pace.C72_zero_sum",
    "Pace.C72_not_equity_sized",
    "Pace.C72_binary64"
   ],
   "note": ""
  },
  {
   "property": "C73",
   "status": "proved",
   "theorems": [
    "Pace.C73_capital",
    "Pace.C73_capital_backtest",
    "Pace.C73_shift"
   ],
   "note": ""
  },
  {
   "property": "C74",
   "status": "proved",
   "theorems": [
    "Pace.C74_year",
    "Pace.C74_no_year",
    "Pace.C74_large_times",
    "Pace.C74_counted",
    "Pace.C74_suffix",
    "Pace.C74_runs",
    "Pace.C74_ratios"
   ],
   "note": ""
  },
  {
   "property": "C75",
   "status": "proved",
   "theorems": [
    "Pace.C75_overview",
    "Pace.C75_summary",
    "Pace.C75_cobra",
    "Pace.C75_intra_trade_always_green",
    "Pace.C75_no_loss_is_red",
    "Pace.C75_intra_trade_binary64",
    "Pace.C75_drawdown_colour"
   ],
   "note": ""
  },
  {
   "property": "C76",
   "status": "proved",
   "theorems": [
    "Pace.C76_passes",
    "Pace.C76_debug",
    "Pace.C76_reports_first",
    "Pace.C76_debug_lines",
    "Pace.C76_push",
    "Pace.C76_actual",
    "Pace.C76_floats",
    "Pace.C76_tuples",
    "Pace.C76_second_ignored",
    "Pace.C76_equal",
    "Pace.C76_modes",
    "Pace.C76_lengths"
   ],
   "note": ""
  },
  {
   "property": "C77",
   "status": "proved",
   "theorems": [
    "Pace.C77_averages",
    "Pace.C77_strength",
    "Pace.C77_direction",
    "Pace.C77_channels",
    "Pace.C77_crossings",
    "Pace.C77_signals",
    "Pace.C77_stochastic",
    "Pace.C77_scale_100",
    "Pace.C77_scale_other",
    "Pace.C77_relative",
    "Pace.C77_relative_volatility",
    "Pace.C77_program",
    "Pace.C77_programs",
    "Pace.C77_arithmetic",
    "Pace.C77_money_flow",
    "Pace.C77_example"
   ],
   "note": ""
  },
  {
   "property": "C78",
   "status": "proved",
   "theorems": [
    "Pace.C78_start_anywhere",
    "Pace.C78_start_window",
    "Pace.C78_start_indicators",
    "Pace.C78_start_averages",
    "Pace.C78_start_signals",
    "Pace.C78_start_runs",
    "Pace.C78_runner",
    "Pace.C78_metrics",
    "Pace.C78_memoryless",
    "Pace.C78_present",
    "Pace.C78_gaps",
    "Pace.C78_highest",
    "Pace.C78_wma_panics",
    "Pace.C78_rsi_gap"
   ],
   "note": ""
  },
  {
   "property": "C79",
   "status": "proved",
   "theorems": [
    "Pace.C79_ta",
    "Pace.C79_src",
    "Pace.C79_indicators",
    "Pace.C79_averages",
    "Pace.C79_strategy",
    "Pace.C79_metrics",
    "Pace.C79_no_underflow",
    "Pace.C79_inside",
    "Pace.C79_backwards"
   ],
   "note": ""
  },
  {
   "property": "C80",
   "status": "proved",
   "theorems": [
    "Pace.C80_order",
    "Pace.C80_thresholds",
    "Pace.C80_averages",
    "Pace.C80_price_indicators",
    "Pace.C80_deviations",
    "Pace.C80_level_free",
    "Pace.C80_strategy",
    "Pace.C80_backtest",
    "Pace.C80_metrics",
    "Pace.C80_cobra",
    "Pace.C80_program",
    "Pace.C80_example",
    "Pace.C80_not_level_free",
    "Pace.C80_not_equity_sized"
   ],
   "note": ""
  },
  {
   "property": "C81",
   "status": "proved",
   "theorems": [
    "Pace.C81_position",
    "Pace.C81_equity",
    "Pace.C81_flat",
    "Pace.C81_change",
    "Pace.C81_bound",
    "Pace.C81_linear",
    "Pace.C81_additive",
    "Pace.C81_same_position",
    "Pace.C81_hold"
   ],
   "note": ""
  },
  {
   "property": "C82",
   "status": "proved",
   "theorems": [
    "Pace.C82_timetable",
    "Pace.C82_equity",
    "Pace.C82_capital",
    "Pace.C82_price_units",
    "Pace.C82_product",
    "Pace.C82_long",
    "Pace.C82_ruin",
    "Pace.C82_limits",
    "Pace.C82_hold"
   ],
   "note": ""
  },
  {
   "property": "C83",
   "status": "proved",
   "theorems": [
    "Pace.C83_statistics",
    "Pace.C83_identities",
    "Pace.C83_equity",
    "Pace.C83_equity_binary64",
    "Pace.C83_identities_binary64",
    "Pace.C83_compound",
    "Pace.C83_compound_binary64"
   ],
   "note": ""
  },
  {
   "property": "C84",
   "status": "proved",
   "theorems": [
    "Pace.C84_averages",
    "Pace.C84_undefined",
    "Pace.C84_zero",
    "Pace.C84_nan",
    "Pace.C84_lines",
    "Pace.C84_no_signal",
    "Pace.C84_idle",
    "Pace.C84_sits_out",
    "Pace.C84_ieee_undefined",
    "Pace.C84_ieee_nan",
    "Pace.C84_ieee_zero",
    "Pace.C84_ieee_aroon",
    "Pace.C84_ieee_no_signal",
    "Pace.C84_ieee_sits_out",
    "Pace.C84_binary64_average",
    "Pace.C84_binary64_cci",
    "Pace.C84_binary64_macd"
   ],
   "note": ""
  },
  {
   "property": "C85",
   "status": "proved",
   "theorems": [
    "Pace.C85_live",
    "Pace.C85_something",
    "Pace.C85_label",
    "Pace.C85_triangle",
    "Pace.C85_no_exit_shown",
    "Pace.C85_plot_equity",
    "Pace.C85_plot_trades"
   ],
   "note": ""
  },
  {
   "property": "C86",
   "status": "proved",
   "theorems": [
    "Pace.C86_linear",
    "Pace.C86_monotone",
    "Pace.C86_envelope",
    "Pace.C86_float",
    "Pace.C86_extremes",
    "Pace.C86_sma_breaks_order"
   ],
   "note": ""
  },
  {
   "property": "C87",
   "status": "proved",
   "theorems": [
    "Pace.C87_averages",
    "Pace.C87_rising",
    "Pace.C87_falling",
    "Pace.C87_lines",
    "Pace.C87_one_side",
    "Pace.C87_sits_out",
    "Pace.C87_ieee_rsi",
    "Pace.C87_ieee_no_signal",
    "Pace.C87_ieee_aroon",
    "Pace.C87_ieee_sits_out"
   ],
   "note": ""
  },
  {
   "property": "C88",
   "status": "proved",
   "theorems": [
    "Pace.C88_same_position",
    "Pace.C88_continuous",
    "Pace.C88_latest",
    "Pace.C88_repeats",
    "Pace.C88_reports",
    "Pace.C88_close_only"
   ],
   "note": ""
  },
  {
   "property": "C89",
   "status": "proved",
   "theorems": [
    "Pace.C89_equity",
    "Pace.C89_counts"
   ],
   "note": ""
  },
  {
   "property": "C90",
   "status": "proved",
   "theorems": [
    "Pace.C90_one_bar_later",
    "Pace.C90_first_bar"
   ],
   "note": ""
  },
  {
   "property": "C91",
   "status": "proved",
   "theorems": [
    "Pace.C91_latest",
    "Pace.C91_lines",
    "Pace.C91_one_threshold",
    "Pace.C91_missed",
    "Pace.C91_strategies",
    "Pace.C91_cross_strategies",
    "Pace.C91_macd",
    "Pace.C91_williams",
    "Pace.C91_equity"
   ],
   "note": ""
  },
  {
   "property": "C92",
   "status": "proved",
   "theorems": [
    "Pace.C92_average",
    "Pace.C92_source",
    "Pace.C92_macd",
    "Pace.C92_line_program",
    "Pace.C92_cross_program",
    "Pace.C92_same_signals_binary64",
    "Pace.C92_equity_binary64",
    "Pace.C92_macd_binary64",
    "Pace.C92_signals",
    "Pace.C92_macd_signals",
    "Pace.C92_signals_exact",
    "Pace.C92_cross_signals",
    "Pace.C92_cross_exact",
    "Pace.C92_macd_program"
   ],
   "note": ""
  },
  {
   "property": "C93",
   "status": "proved",
   "theorems": [
    "Pace.C93_rsi_of_near",
    "Pace.C93_rsi",
    "Pace.C93_rsi_program",
    "Pace.C93_example",
    "Pace.C93_stoch",
    "Pace.C93_stoch_rsi",
    "Pace.C93_stoch_rsi_program"
   ],
   "note": ""
  },
  {
   "property": "C94",
   "status": "proved",
   "theorems": [
    "Pace.C94_donchian",
    "Pace.C94_chande_kroll",
    "Pace.C94_williams_program",
    "Pace.C94_balance_of_power_program",
    "Pace.C94_awesome_program",
    "Pace.C94_price_oscillator_program",
    "Pace.C94_volume_oscillator_program",
    "Pace.C94_balance_of_power",
    "Pace.C94_williams",
    "Pace.C94_awesome",
    "Pace.C94_price_oscillator",
    "Pace.C94_volume_oscillator",
    "Pace.C94_highest",
    "Pace.C94_lowest",
    "Pace.C94_range",
    "Pace.C94_atr"
   ],
   "note": ""
  },
  {
   "property": "C95",
   "status": "proved",
   "theorems": [
    "Pace.C95_cmo_program",
    "Pace.C95_cmf_program",
    "Pace.C95_vortex_program",
    "Pace.C95_vigor_program",
    "Pace.C95_cmf",
    "Pace.C95_sum",
    "Pace.C95_cmo",
    "Pace.C95_ultimate",
    "Pace.C95_vortex",
    "Pace.C95_vigor"
   ],
   "note": ""
  },
  {
   "property": "C96",
   "status": "proved",
   "theorems": [
    "Pace.C96_dev",
    "Pace.C96_cci",
    "Pace.C96_cci_program",
    "Pace.C96_roc",
    "Pace.C96_wma",
    "Pace.C96_coppock",
    "Pace.C96_coppock_program"
   ],
   "note": ""
  },
  {
   "property": "C97",
   "status": "proved",
   "theorems": [
    "Pace.C97_aroon",
    "Pace.C97_aroon_program",
    "Pace.C97_aroon_binary64"
   ],
   "note": ""
  },
  {
   "property": "C98",
   "status": "proved",
   "theorems": [
    "Pace.C98_stdev",
    "Pace.C98_percent_b",
    "Pace.C98_band_width",
    "Pace.C98_percent_b_program"
   ],
   "note": ""
  },
  {
   "property": "C99",
   "status": "proved",
   "theorems": [
    "Pace.C99_dmi",
    "Pace.C99_dmi_program"
   ],
   "note": ""
  },
  {
   "property": "C100",
   "status": "proved",
   "theorems": [
    "Pace.C100_connors",
    "Pace.C100_turns",
    "Pace.C100_connors_program"
   ],
   "note": ""
  },
  {
   "property": "C101",
   "status": "proved",
   "theorems": [
    "Pace.C101_relative_volatility",
    "Pace.C101_relative_volatility_program"
   ],
   "note": ""
  },
  {
   "property": "C102",
   "status": "proved",
   "theorems": [
    "Pace.C102_rounded_logs",
    "Pace.C102_choppiness"
   ],
   "note": ""
  },
  {
   "property": "C103",
   "status": "proved",
   "theorems": [
    "Pace.C103_averages",
    "Pace.C103_percents",
    "Pace.C103_factors",
    "Pace.C103_equity_metrics",
    "Pace.C103_drawdown",
    "Pace.C103_drawdown_percent",
    "Pace.C103_cobra_drawdown",
    "Pace.C103_apart",
    "Pace.C103_trades"
   ],
   "note": ""
  },
  {
   "property": "C104",
   "status": "proved",
   "theorems": [
    "Pace.C104_batch",
    "Pace.C104_statistics",
    "Pace.C104_ratios",
    "Pace.C104_sharpe_sortino"
   ],
   "note": ""
  },
  {
   "property": "C105",
   "status": "proved",
   "theorems": [
    "Pace.C105_ratios",
    "Pace.C105_report",
    "Pace.C105_intra_trade"
   ],
   "note": ""
  },
  {
   "property": "C106",
   "status": "proved",
   "theorems": [
    "Pace.C106_equity",
    "Pace.C106_drawdown",
    "Pace.C106_ratios"
   ],
   "note": ""
  },
  {
   "property": "C107",
   "status": "proved",
   "theorems": [
    "Pace.C107_fast",
    "Pace.C107_variance",
    "Pace.C107_stdev"
   ],
   "note": ""
  },
  {
   "property": "C108",
   "status": "proved",
   "theorems": [
    "Pace.C108_never_negative",
    "Pace.C108_default",
    "Pace.C108_constant",
    "Pace.C108_default_flat"
   ],
   "note": ""
  },
  {
   "property": "C109",
   "status": "proved",
   "theorems": [
    "Pace.C109_ratios",
    "Pace.C109_report",
    "Pace.C109_omega"
   ],
   "note": ""
  },
  {
   "property": "C110",
   "status": "proved",
   "theorems": [
    "Pace.C110_cobra",
    "Pace.C110_tradingview"
   ],
   "note": ""
  }
 ]
}