{
 "claims": [
  {
   "property": "C01",
   "status": "proved",
   "theorems": [
    "Finmod.C01_new_order_book_keeps_best",
    "Finmod.C01_stable_sort_unique"
   ],
   "note": "Every lawful float semantics (exact and IEEE); side lengths below 2^53. Uniqueness of the stable sort is proved beside it."
  },
  {
   "property": "C02",
   "status": "proved",
   "theorems": [
    "Finmod.C02_accum_volume_running_sum"
   ],
   "note": "Every float semantics, every book NewOrderBook returns."
  },
  {
   "property": "C03",
   "status": "proved",
   "theorems": [
    "Finmod.C03_book_depth_bounded"
   ],
   "note": "Every lawful float semantics; NaN prices allowed; also shows that nothing panics."
  },
  {
   "property": "C04",
   "status": "proved",
   "theorems": [
    "Finmod.C04_sides_stay_sorted"
   ],
   "note": "From NewOrderBook with distinct non-NaN prices, any history."
  },
  {
   "property": "C05",
   "status": "proved",
   "theorems": [
    "Finmod.C05_nonzero_update_sets_level"
   ],
   "note": "Any strictly sorted book."
  },
  {
   "property": "C06",
   "status": "proved",
   "theorems": [
    "Finmod.C06_zero_update_deletes_level"
   ],
   "note": "Strictly sorted book within its depth."
  },
  {
   "property": "C07",
   "status": "proved",
   "theorems": [
    "Finmod.C07_unknown_side_rejected"
   ],
   "note": "All books, all updates."
  },
  {
   "property": "C08",
   "status": "proved",
   "theorems": [
    "Finmod.C08_book_never_crossed",
    "Finmod.C08_new_book_never_crossed"
   ],
   "note": "Any history, from any good book and from NewOrderBook."
  },
  {
   "property": "C09",
   "status": "partial",
   "theorems": [
    "Finmod.C09_never_locked_violated",
    "Finmod.C09_never_locked_partial"
   ],
   "note": "False of the code: an ask at the price of the only (or last) bid leaves that bid, so the book is locked. Counterexample proved; partial theorem covers every update that is not at the opposite side's worst price. What happens in the other cases is C130."
  },
  {
   "property": "C10",
   "status": "partial",
   "theorems": [
    "Finmod.C10_removes_only_crossed_violated",
    "Finmod.C10_removes_only_crossed_partial"
   ],
   "note": "False of the code: removeInvalid drops one extra row. Counterexample proved; partial theorem bounds the survivors and gives the cases where the claim holds. What happens in the other cases is C129."
  },
  {
   "property": "C11",
   "status": "proved",
   "theorems": [
    "Finmod.C11_other_side_untouched"
   ],
   "note": "All books within their depth, sorted or not."
  },
  {
   "property": "C12",
   "status": "proved",
   "theorems": [
    "Finmod.C12_row_is_latest_write"
   ],
   "note": "Any history."
  },
  {
   "property": "C13",
   "status": "proved",
   "theorems": [
    "Finmod.C13_book_is_latest_map"
   ],
   "note": "Any non-crossing history with room."
  },
  {
   "property": "C14",
   "status": "proved",
   "theorems": [
    "Finmod.C14_update_idempotent"
   ],
   "note": "All updates on strictly sorted depth-bounded books."
  },
  {
   "property": "C15",
   "status": "proved",
   "theorems": [
    "Finmod.C15_updates_commute"
   ],
   "note": "Own side, both orders, with room."
  },
  {
   "property": "C16",
   "status": "partial",
   "theorems": [
    "Finmod.C16_accum_after_updates_violated",
    "Finmod.C16_accum_after_updates_partial"
   ],
   "note": "False of the code: ApplyUpdate writes rows with AccumVolume 0 and never recomputes. Counterexample proved; partial theorem says what AccumVolume is after any history. What happens in the other cases is C141."
  },
  {
   "property": "C17",
   "status": "partial",
   "theorems": [
    "Finmod.C17_get_depth_volume_violated",
    "Finmod.C17_get_depth_volume_partial"
   ],
   "note": "False of the code: GetDepth returns a price. Counterexample proved; partial theorem: the row it finds carries the documented volume."
  },
  {
   "property": "C18",
   "status": "proved",
   "theorems": [
    "Finmod.C18_get_depth_level"
   ],
   "note": "All strictly sorted non-empty books."
  },
  {
   "property": "C19",
   "status": "partial",
   "theorems": [
    "Finmod.C19_get_depth_no_panic_violated",
    "Finmod.C19_get_depth_no_panic_partial"
   ],
   "note": "False of the code: an empty side panics. Counterexample proved; partial theorem for non-empty sides or non-positive price. What happens in the other cases is C131."
  },
  {
   "property": "C20",
   "status": "proved",
   "theorems": [
    "Finmod.C20_overlap_decided"
   ],
   "note": "Every float semantics for the decision; exact arithmetic for the finite value."
  },
  {
   "property": "C21",
   "status": "proved",
   "theorems": [
    "Finmod.C21_overlap_symmetric"
   ],
   "note": "Every float semantics."
  },
  {
   "property": "C22",
   "status": "partial",
   "theorems": [
    "Finmod.C22_overlap_value_violated",
    "Finmod.C22_overlap_value_partial"
   ],
   "note": "False of the code when a whole side is crossed. Counterexample proved; partial theorem (exact arithmetic, non-negative volumes) when both sides also have a row that is not crossed. What happens in the other cases is C135 (exact) and C211 (float64)."
  },
  {
   "property": "C23",
   "status": "proved",
   "theorems": [
    "Finmod.C23_print_ladder"
   ],
   "note": "All books; fmt's rendering of a row is not modelled."
  },
  {
   "property": "C24",
   "status": "proved",
   "theorems": [
    "Finmod.C24_groups"
   ],
   "note": "Every float semantics, every time zone; the fixed starting values -1e308/1e308 and the five-decimal printing are part of the statement."
  },
  {
   "property": "C25",
   "status": "proved",
   "theorems": [
    "Finmod.C25_retained"
   ],
   "note": "Every float semantics, every time zone."
  },
  {
   "property": "C26",
   "status": "proved",
   "theorems": [
    "Finmod.C26_conserved"
   ],
   "note": "Exact arithmetic, finite volumes, prices inside the code's starting values."
  },
  {
   "property": "C27",
   "status": "proved",
   "theorems": [
    "Finmod.C27_wellFormed"
   ],
   "note": "Every float semantics."
  },
  {
   "property": "C28",
   "status": "proved",
   "theorems": [
    "Finmod.C28_regular",
    "Finmod.C28_succeeds"
   ],
   "note": "Every lawful float semantics; times up to 2^53. Success is proved too (exact and IEEE)."
  },
  {
   "property": "C29",
   "status": "partial",
   "theorems": [
    "Finmod.C29_span_violated",
    "Finmod.C29_span_partial"
   ],
   "note": "False of the code: with a hole over the boundary a candle joins an older group. Counterexample proved; partial theorem for series in which no interval start is missing. What happens in the other cases is C146."
  },
  {
   "property": "C30",
   "status": "proved",
   "theorems": [
    "Finmod.C30_rejects",
    "Finmod.C30_accepts"
   ],
   "note": "Rejections for every float semantics; that everything else is accepted for exact and IEEE arithmetic."
  },
  {
   "property": "C31",
   "status": "partial",
   "theorems": [
    "Finmod.C31_panic_violated",
    "Finmod.C31_no_panic_partial"
   ],
   "note": "False of the code: an empty list panics, and interval 0 or two first candles less than a minute apart can. Counterexample proved; partial theorem for the rest. What happens in the other cases is C132."
  },
  {
   "property": "C32",
   "status": "proved",
   "theorems": [
    "Finmod.C32_identity"
   ],
   "note": "Exact arithmetic, volumes on the grid."
  },
  {
   "property": "C33",
   "status": "proved",
   "theorems": [
    "Finmod.C33_compose"
   ],
   "note": "Exact arithmetic, volumes on the grid, series starting at minute 0."
  },
  {
   "property": "C34",
   "status": "proved",
   "theorems": [
    "Finmod.C34_minInterval"
   ],
   "note": "Every lawful float semantics."
  },
  {
   "property": "C35",
   "status": "partial",
   "theorems": [
    "Finmod.C35_minInterval_violated",
    "Finmod.C35_minInterval_partial"
   ],
   "note": "False of the code on amd64: fewer than two candles give a negative number. Counterexample proved; partial theorem for two or more. What happens in the other cases is C133."
  },
  {
   "property": "C36",
   "status": "proved",
   "theorems": [
    "Finmod.C36_roundtrip",
    "Finmod.C36_roundtrip_ieee",
    "Finmod.C36_injective"
   ],
   "note": "All candle lists with 32-bit times, byte level: fmt's %v, bufio.Scanner, strings.Split, ParseInt and ParseFloat are modelled. Any platform, any digit choice that reads back; the shortest digits of a double are proved to qualify."
  },
  {
   "property": "C37",
   "status": "partial",
   "theorems": [
    "Finmod.C37_times_partial",
    "Finmod.C37_claim_violated"
   ],
   "note": "False of the code: times are parsed as 32-bit, a candle of 2038 or later does not load. Partial: loads back iff every time fits in 32 bits, otherwise an error."
  },
  {
   "property": "C38",
   "status": "partial",
   "theorems": [
    "Finmod.C38_claim_violated",
    "Finmod.C38_misread_violated",
    "Finmod.C38_torn_partial",
    "Finmod.C38_line_boundary_partial"
   ],
   "note": "False of the code: a crash after one byte of a line makes the load panic, a crash inside the last volume loads a wrong volume silently. Partial: for every crash point a successful load is a prefix plus at most one candle whose volume alone may be wrong; cuts between lines are exact. What happens in the other cases is C137."
  },
  {
   "property": "C39",
   "status": "partial",
   "theorems": [
    "Finmod.C39_claim_violated",
    "Finmod.C39_panics_iff_partial",
    "Finmod.C39_six_words_partial"
   ],
   "note": "False of the code: an empty line or fewer than six words panics. Partial: the exact condition for a panic, and a sufficient condition for none."
  },
  {
   "property": "C40",
   "status": "proved",
   "theorems": [
    "Finmod.C40_profit_is_net_cash"
   ],
   "note": "Exact arithmetic; any history (also with ignored or rejected trades) that leaves the position open before the close."
  },
  {
   "property": "C41",
   "status": "proved",
   "theorems": [
    "Finmod.C41_cost_basis"
   ],
   "note": "Exact arithmetic, any history that leaves the position open."
  },
  {
   "property": "C42",
   "status": "proved",
   "theorems": [
    "Finmod.C42_trade_at_mark",
    "Finmod.C42_close_at_mark"
   ],
   "note": "Exact arithmetic, any long or short position with positive quantity."
  },
  {
   "property": "C43",
   "status": "proved",
   "theorems": [
    "Finmod.C43_add_averages"
   ],
   "note": "Exact arithmetic."
  },
  {
   "property": "C44",
   "status": "proved",
   "theorems": [
    "Finmod.C44_wrong_pair"
   ],
   "note": "Every float semantics, every position and trade."
  },
  {
   "property": "C45",
   "status": "partial",
   "theorems": [
    "Finmod.C45_oversized_reported_violated",
    "Finmod.C45_oversized_unchanged_partial"
   ],
   "note": "False of the code: Modify drops the error of the oversized case and returns nil. Counterexample proved; partial theorem: the position is unchanged (every float semantics), and the inner helper does report it."
  },
  {
   "property": "C46",
   "status": "partial",
   "theorems": [
    "Finmod.C46_closed_unchanged_violated",
    "Finmod.C46_closed_stays_closed_partial"
   ],
   "note": "False of the code: Modify does not check Open, a closed position's price, quantity, profit and log still change. Counterexample proved from a reachable state; partial theorem: it stays closed and its identity fields are fixed. What happens in the other cases is C138."
  },
  {
   "property": "C47",
   "status": "proved",
   "theorems": [
    "Finmod.C47_never_reopens"
   ],
   "note": "Every float semantics."
  },
  {
   "property": "C48",
   "status": "proved",
   "theorems": [
    "Finmod.C48_trade_log"
   ],
   "note": "Every float semantics; acceptance is spelled out in Spec.Accepts."
  },
  {
   "property": "C49",
   "status": "proved",
   "theorems": [
    "Finmod.C49_quantity_positive"
   ],
   "note": "Every lawful rounding, overflow allowed."
  },
  {
   "property": "C50",
   "status": "proved",
   "theorems": [
    "Finmod.C50_close_decision"
   ],
   "note": "Exact arithmetic."
  },
  {
   "property": "C51",
   "status": "proved",
   "theorems": [
    "Finmod.C51_mirror",
    "Finmod.C51_mirror_open"
   ],
   "note": "Proved for every lawful float semantics (stronger than stated); exact corollary from the opening trade on."
  },
  {
   "property": "C52",
   "status": "proved",
   "theorems": [
    "Finmod.C52_fee_identity"
   ],
   "note": "Exact arithmetic."
  },
  {
   "property": "C53",
   "status": "proved",
   "theorems": [
    "Finmod.C53_request_validation"
   ],
   "note": "Every argument, including NaN, infinities and -0."
  },
  {
   "property": "C54",
   "status": "proved",
   "theorems": [
    "Finmod.C54_succeeds_iff",
    "Finmod.C54_completes"
   ],
   "note": "Success condition in every float semantics; value in exact arithmetic."
  },
  {
   "property": "C55",
   "status": "partial",
   "theorems": [
    "Finmod.C55_finite_violated",
    "Finmod.C55_finite_partial"
   ],
   "note": "False of the code: a priceless take-profit/stop-loss/close request for a total is completed to an infinite quantity. Counterexample proved; partial theorem for a non-zero effective price. What happens in the other cases is C134."
  },
  {
   "property": "C56",
   "status": "partial",
   "theorems": [
    "Finmod.C56_close_price_violated",
    "Finmod.C56_close_price_partial"
   ],
   "note": "False of the code: close-position requests use their own price. Counterexample proved; partial theorem says what is used."
  },
  {
   "property": "C57",
   "status": "proved",
   "theorems": [
    "Finmod.C57_not_twice"
   ],
   "note": "Rejection of completed requests in every float semantics; that a completed request has both fields non-zero in exact arithmetic (binary64 underflow can make one zero)."
  },
  {
   "property": "C58",
   "status": "proved",
   "theorems": [
    "Finmod.C58_isOpen"
   ],
   "note": "All orders and strings."
  },
  {
   "property": "C59",
   "status": "proved",
   "theorems": [
    "Finmod.C59_newAsset",
    "Finmod.C59_constructors"
   ],
   "note": "All strings."
  },
  {
   "property": "C60",
   "status": "proved",
   "theorems": [
    "Finmod.C60_names_identify"
   ],
   "note": "All strings."
  },
  {
   "property": "C61",
   "status": "proved",
   "theorems": [
    "Finmod.C61_symbol_separator"
   ],
   "note": "All pairs, all one-character separators."
  },
  {
   "property": "C62",
   "status": "partial",
   "theorems": [
    "Finmod.C62_symbol_plain_violated",
    "Finmod.C62_symbol_plain_partial"
   ],
   "note": "False of the code: AB/C and A/BC coincide. Counterexample proved; partial theorem: it holds among the pairs of PairMappings and for bases of equal length. What happens in the other cases is C144."
  },
  {
   "property": "C63",
   "status": "partial",
   "theorems": [
    "Finmod.C63_mapping_symbol_violated",
    "Finmod.C63_mapping_symbol_partial"
   ],
   "note": "False of the code: DYDXETH maps to OOKI/ETH. Counterexample proved; partial theorem for every other key."
  },
  {
   "property": "C64",
   "status": "proved",
   "theorems": [
    "Finmod.C64_mapping_injective"
   ],
   "note": "All strings; the table facts are about every row of the literal."
  },
  {
   "property": "C65",
   "status": "proved",
   "theorems": [
    "Finmod.C65_moving_average",
    "Finmod.C65_moving_average_exact"
   ],
   "note": "Every float semantics (operation order included); mean in exact arithmetic."
  },
  {
   "property": "C66",
   "status": "proved",
   "theorems": [
    "Finmod.C66_bad_periods"
   ],
   "note": "Every float semantics, nil slice and every period; never panics."
  },
  {
   "property": "C67",
   "status": "proved",
   "theorems": [
    "Finmod.C67_within_range"
   ],
   "note": "Exact arithmetic."
  },
  {
   "property": "C68",
   "status": "proved",
   "theorems": [
    "Finmod.C68_affine"
   ],
   "note": "Exact arithmetic."
  },
  {
   "property": "C69",
   "status": "proved",
   "theorems": [
    "Finmod.C69_slides"
   ],
   "note": "Exact arithmetic."
  },
  {
   "property": "C70",
   "status": "proved",
   "theorems": [
    "Finmod.C70_ema_float",
    "Finmod.C70_ema_exact"
   ],
   "note": "Every float semantics (operation order included), and the closed recurrence in exact arithmetic."
  },
  {
   "property": "C71",
   "status": "partial",
   "theorems": [
    "Finmod.C71_uses_all_violated",
    "Finmod.C71_uses_all_partial"
   ],
   "note": "False of the code: len-period values, and the close of candle number period is never read. Both refuted for exact and binary64; partial theorem: every other close changes the result. What happens in the other cases is C142."
  },
  {
   "property": "C72",
   "status": "proved",
   "theorems": [
    "Finmod.C72_smma_exact"
   ],
   "note": "Exact arithmetic."
  },
  {
   "property": "C73",
   "status": "proved",
   "theorems": [
    "Finmod.C73_look_back"
   ],
   "note": "Every float semantics."
  },
  {
   "property": "C74",
   "status": "proved",
   "theorems": [
    "Finmod.C74_weighted_sum"
   ],
   "note": "Exact arithmetic."
  },
  {
   "property": "C75",
   "status": "proved",
   "theorems": [
    "Finmod.C75_nonneg",
    "Finmod.C75_nonneg_ieee",
    "Finmod.C75_bounded_exact",
    "Finmod.C75_overflow_needed"
   ],
   "note": "Non-negativity for every lawful float semantics incl. binary64; the upper bound in exact arithmetic. That ranges must not overflow is shown necessary."
  },
  {
   "property": "C76",
   "status": "proved",
   "theorems": [
    "Finmod.C76_rsi_range",
    "Finmod.C76_rsi_range_ieee"
   ],
   "note": "Every lawful float semantics incl. binary64/binary32; any closes (infinite and NaN included), any period, any backing array."
  },
  {
   "property": "C77",
   "status": "partial",
   "theorems": [
    "Finmod.C77_reads_input_violated",
    "Finmod.C77_reads_input_partial"
   ],
   "note": "False of the code: candles[i:j+2] reaches one past the slice. Refuted for panics and for dependence on spare capacity; partial theorem gives exactly when it panics and that only the last value depends on the candle behind the slice."
  },
  {
   "property": "C78",
   "status": "proved",
   "theorems": [
    "Finmod.C78_rsi_windows",
    "Finmod.C78_rsi_exact"
   ],
   "note": "Every float semantics; closed form in exact arithmetic. The last window includes the candle behind the slice (see C77)."
  },
  {
   "property": "C79",
   "status": "partial",
   "theorems": [
    "Finmod.C79_number_violated",
    "Finmod.C79_number_partial"
   ],
   "note": "False of the code: a flat window gives NaN. Partial: a window with some change gives a number unless both sums overflow. What happens in the other cases is C136."
  },
  {
   "property": "C80",
   "status": "proved",
   "theorems": [
    "Finmod.C80_rsi_all_rises",
    "Finmod.C80_rsi_all_falls",
    "Finmod.C80_rsi_extremes_ieee",
    "Finmod.C80_rsi_values"
   ],
   "note": "Every lawful semantics with gradual underflow incl. binary64; overflow does not matter."
  },
  {
   "property": "C81",
   "status": "proved",
   "theorems": [
    "Finmod.C81_rsi_affine_window",
    "Finmod.C81_rsi_affine"
   ],
   "note": "Exact arithmetic, whole result, every period."
  },
  {
   "property": "C82",
   "status": "partial",
   "theorems": [
    "Finmod.C82_enough_candles_violated",
    "Finmod.C82_enough_candles_partial"
   ],
   "note": "False of the code: period > len is not reported. EINVALID iff fewer than 14 candles is proved."
  },
  {
   "property": "C83",
   "status": "proved",
   "theorems": [
    "Finmod.C83_local_extremes",
    "Finmod.C83_local_extreme_at"
   ],
   "note": "No NaN and no tie with the two following candles; whole result and single position."
  },
  {
   "property": "C84",
   "status": "proved",
   "theorems": [
    "Finmod.C84_reported_iff"
   ],
   "note": "No NaN; exact characterisation with ties, both directions."
  },
  {
   "property": "C85",
   "status": "partial",
   "theorems": [
    "Finmod.C85_two_after_violated",
    "Finmod.C85_two_after_partial",
    "Finmod.C85_no_ties_partial"
   ],
   "note": "False of the code: a plateau at the end of the data is reported. Partial: two weaker candles, or unbeaten to the end of data; holds without ties. What happens in the other cases is C140."
  },
  {
   "property": "C86",
   "status": "partial",
   "theorems": [
    "Finmod.C86_repaint_violated",
    "Finmod.C86_confirmed_partial",
    "Finmod.C86_no_ties_partial"
   ],
   "note": "False of the code: that plateau's fractal vanishes when a higher candle arrives. Partial: verdicts confirmed by two weaker candles never change; without ties the result only grows. What happens in the other cases is C140."
  },
  {
   "property": "C87",
   "status": "proved",
   "theorems": [
    "Finmod.C87_blocks",
    "Finmod.C87_time_order"
   ],
   "note": "All lists, NaN and ties included."
  },
  {
   "property": "C88",
   "status": "proved",
   "theorems": [
    "Finmod.C88_mirror"
   ],
   "note": "All lists, NaN and ties included."
  },
  {
   "property": "C89",
   "status": "proved",
   "theorems": [
    "Finmod.C89_keyed_by_own_id",
    "Finmod.C89_id_is_key"
   ],
   "note": "Every history, every ID generator (repeating ones too); receiver starts as the zero Actions."
  },
  {
   "property": "C90",
   "status": "proved",
   "theorems": [
    "Finmod.C90_nothing_lost",
    "Finmod.C90_entries_kept"
   ],
   "note": "Every history; the ID stream is assumed injective (xid's contract)."
  },
  {
   "property": "C91",
   "status": "proved",
   "theorems": [
    "Finmod.C91_no_interference",
    "Finmod.C91_annotations_in_order"
   ],
   "note": "Every history, every ID generator."
  },
  {
   "property": "C92",
   "status": "proved",
   "theorems": [
    "Finmod.C92_trade_update",
    "Finmod.C92_order_update",
    "Finmod.C92_position_update",
    "Finmod.C92_annotation_update"
   ],
   "note": "Non-nil receivers; all dynamic argument types."
  },
  {
   "property": "C93",
   "status": "partial",
   "theorems": [
    "Finmod.C93_update_panics_violated",
    "Finmod.C93_update_panics_iff_partial"
   ],
   "note": "False of the code: a typed nil pointer is dereferenced. Partial: it is the only argument that panics."
  },
  {
   "property": "C94",
   "status": "proved",
   "theorems": [
    "Finmod.C94_schemas",
    "Finmod.C94_id_after_update"
   ],
   "note": "All records."
  },
  {
   "property": "C95",
   "status": "proved",
   "theorems": [
    "Finmod.C95_local_time",
    "Finmod.C95_location_time",
    "Finmod.C95_known_locations",
    "Finmod.C95_order"
   ],
   "note": "All int64 times, arbitrary zone database."
  },
  {
   "property": "C96",
   "status": "proved",
   "theorems": [
    "Finmod.C96_accepts_exactly_dates",
    "Finmod.C96_unix_midnight",
    "Finmod.C96_refuses_rest"
   ],
   "note": "All byte strings: accepted exactly when YYYY-MM-DD with a real date; result is midnight UTC; otherwise an error."
  },
  {
   "property": "C97",
   "status": "proved",
   "theorems": [
    "Finmod.C97_order",
    "Finmod.C97_next_day"
   ],
   "note": "All pairs of accepted strings."
  },
  {
   "property": "C98",
   "status": "partial",
   "theorems": [
    "Finmod.C98_position_string_panics_violated",
    "Finmod.C98_balance_string_panics_violated",
    "Finmod.C98_prints_iff_partial",
    "Finmod.C98_others_print_partial",
    "Finmod.C98_new_position_prints_partial"
   ],
   "note": "False of the code: printing a position with a short ID or no asset panics. Partial theorems give the exact conditions under which each String method returns."
  },
  {
   "property": "C99",
   "status": "partial",
   "theorems": [
    "Finmod.C99_caller_rows_partial",
    "Finmod.C99_untouched_asks_partial",
    "Finmod.C99_caller_rows_violated"
   ],
   "note": "False of the code: the caller's slices are sorted and totalled in place. Partial: exactly what they hold afterwards, exactly when they are unchanged, nothing else is written."
  },
  {
   "property": "C100",
   "status": "proved",
   "theorems": [
    "Finmod.C100_updates_as_values",
    "Finmod.C100_update_as_value",
    "Finmod.C100_new_as_value"
   ],
   "note": "Any memory, capacities and growth policy, any history; NewOrderBook for every lawful float semantics."
  },
  {
   "property": "C101",
   "status": "partial",
   "theorems": [
    "Finmod.C101_own_log",
    "Finmod.C101_new_log",
    "Finmod.C101_copies_violated",
    "Finmod.C101_independent_partial",
    "Finmod.C101_full_copy_partial",
    "Finmod.C101_first_entries_partial",
    "Finmod.C101_one_sided_partial"
   ],
   "note": "False of the code (four trades under doubling growth). Partial: independent when spare room is not shared (any copy of a full array), first entries kept always, right while only one of the two is modified. What happens in the other cases is C147."
  },
  {
   "property": "C102",
   "status": "proved",
   "theorems": [
    "Go.C102_nearest_even",
    "Go.C102_laws",
    "Go.C102_error"
   ],
   "note": "Nearest, ties to even, overflow threshold and error bound against an independent definition of the formats; float64 and float32."
  },
  {
   "property": "C103",
   "status": "partial",
   "theorems": [
    "Finmod.C103_claim_violated",
    "Finmod.C103_save_partial"
   ],
   "note": "False of the code: write errors are dropped. Partial: what the file holds in every case. What happens in the other cases is C143."
  },
  {
   "property": "C104",
   "status": "partial",
   "theorems": [
    "Finmod.C104_claim_violated",
    "Finmod.C104_counts_lines_partial"
   ],
   "note": "False of the code: a line of 64 KiB ends the load silently. Partial: with no such line, one candle per line. What happens in the other cases is C137."
  },
  {
   "property": "C105",
   "status": "proved",
   "theorems": [
    "Finmod.C105_loads_lines",
    "Finmod.C105_loads_prefix"
   ],
   "note": "All byte strings."
  },
  {
   "property": "C106",
   "status": "partial",
   "theorems": [
    "Finmod.C106_copies_violated",
    "Finmod.C106_separate_books_partial"
   ],
   "note": "False of the code: rows are overwritten in place. Partial: books with separate arrays are independent under any interleaving. What happens in the other cases is C150."
  },
  {
   "property": "C107",
   "status": "proved",
   "theorems": [
    "Finmod.C107_moving_average_accurate"
   ],
   "note": "IEEE binary64, window bound M <= 2^900."
  },
  {
   "property": "C108",
   "status": "proved",
   "theorems": [
    "Finmod.C108_ema_accurate",
    "Finmod.C108_smma_accurate"
   ],
   "note": "IEEE binary64; the bound does not grow with the number of candles."
  },
  {
   "property": "C109",
   "status": "proved",
   "theorems": [
    "Finmod.C109_volatility_accurate"
   ],
   "note": "IEEE binary64; the bound does not grow with the number of candles."
  },
  {
   "property": "C110",
   "status": "proved",
   "theorems": [
    "Finmod.C110_rsi_accurate"
   ],
   "note": "IEEE binary64 and binary32, including overflow of the ratio; NaN exactly on flat windows."
  },
  {
   "property": "C111",
   "status": "proved",
   "theorems": [
    "Finmod.C111_quantity_and_basis"
   ],
   "note": "IEEE binary64, including underflow; error constants explicit."
  },
  {
   "property": "C112",
   "status": "proved",
   "theorems": [
    "Finmod.C112_profit"
   ],
   "note": "IEEE binary64; any closing trade, also one inside the 0.0001 tolerance."
  },
  {
   "property": "C113",
   "status": "partial",
   "theorems": [
    "Finmod.C113_closes_exact_partial",
    "Finmod.C113_closes_on_grid_partial",
    "Finmod.C113_dust_partial",
    "Finmod.C113_closes_violated"
   ],
   "note": "False of the code in float64: buy 0.1, buy 0.2, sell 0.1, sell 0.2 leaves 2^-54 units open. Partial: always in exact arithmetic; in float64 when quantities are multiples of a power of two with sums up to 2^53 units; otherwise the size of the residue is bounded."
  },
  {
   "property": "C114",
   "status": "proved",
   "theorems": [
    "Finmod.C114_volume_nearest",
    "Finmod.C114_total_volume"
   ],
   "note": "IEEE binary64. Volumes are non-negative; volumes with more decimals are not covered."
  },
  {
   "property": "C115",
   "status": "proved",
   "theorems": [
    "Finmod.C115_identity",
    "Finmod.C115_compose"
   ],
   "note": "IEEE binary64."
  },
  {
   "property": "C116",
   "status": "proved",
   "theorems": [
    "Finmod.C116_row_order_irrelevant"
   ],
   "note": "Any float semantics, NaN prices excluded."
  },
  {
   "property": "C117",
   "status": "proved",
   "theorems": [
    "Finmod.C117_rebuild_repairs",
    "Finmod.C117_rebuild_idempotent"
   ],
   "note": "Any lawful float semantics; MaxDepth below 2^53."
  },
  {
   "property": "C118",
   "status": "partial",
   "theorems": [
    "Finmod.C118_limited_view_violated",
    "Finmod.C118_limited_view_partial",
    "Finmod.C118_rows_partial"
   ],
   "note": "False of the code: after a deletion the limited book has lost the next row. Partial: holds for non-crossing histories without deletions; with deletions, every row of the limited book is a row of the deeper one. What happens in the other cases is C152."
  },
  {
   "property": "C119",
   "status": "proved",
   "theorems": [
    "Finmod.C119_accum_monotone",
    "Finmod.C119_accum_accurate"
   ],
   "note": "Order: any lawful float semantics; accuracy: IEEE binary64."
  },
  {
   "property": "C120",
   "status": "proved",
   "theorems": [
    "Finmod.C120_order_only",
    "Finmod.C120_relabel"
   ],
   "note": "All floats including NaN."
  },
  {
   "property": "C121",
   "status": "proved",
   "theorems": [
    "Finmod.C121_monotone",
    "Finmod.C121_sign",
    "Finmod.C121_accurate"
   ],
   "note": "Monotone and sign: any lawful float semantics (sign also needs gradual underflow); accuracy: IEEE binary64."
  },
  {
   "property": "C122",
   "status": "proved",
   "theorems": [
    "Finmod.C122_fee_accurate",
    "Finmod.C122_no_fee"
   ],
   "note": "Accuracy: IEEE binary64; zero fee: any lawful float semantics."
  },
  {
   "property": "C123",
   "status": "proved",
   "theorems": [
    "Finmod.C123_nearest"
   ],
   "note": "IEEE binary64; covers the overflow that C55 reports."
  },
  {
   "property": "C124",
   "status": "proved",
   "theorems": [
    "Finmod.C124_ma_monotone",
    "Finmod.C124_ema_monotone",
    "Finmod.C124_smma_monotone",
    "Finmod.C124_smma_monotone_ieee"
   ],
   "note": "MovingAverage and ExponentialMovingAverage: any lawful float semantics. SmoothedMovingAverage: exact arithmetic (any sign) and IEEE-754 binary64 (non-negative closes, raised values finite, period below 2^53)."
  },
  {
   "property": "C125",
   "status": "partial",
   "theorems": [
    "Finmod.C125_flat_violated",
    "Finmod.C125_flat_partial"
   ],
   "note": "False of the code in binary64 (0.1 three times). Partial: exact arithmetic always; binary64 when the close is m*2^e with |m|*n < 2^53. What happens in the other cases is C139 (periods 1 and 2)."
  },
  {
   "property": "C126",
   "status": "proved",
   "theorems": [
    "Finmod.C126_monotone",
    "Finmod.C126_quoted"
   ],
   "note": "Any well-formed book with two non-empty sides."
  },
  {
   "property": "C127",
   "status": "proved",
   "theorems": [
    "Finmod.C127_texts_identify",
    "Finmod.C127_texts",
    "Finmod.C127_print",
    "Finmod.C127_formats"
   ],
   "note": "Rendering of numbers, times and %v of slices is a parameter."
  },
  {
   "property": "C128",
   "status": "partial",
   "theorems": [
    "Finmod.C128_lines_partial",
    "Finmod.C128_annotations_partial",
    "Finmod.C128_one_line_violated"
   ],
   "note": "Rendering of numbers and times is a parameter. False of the code: a line feed follows the embedded pair or asset. Partial: exact number of lines of every String method."
  },
  {
   "property": "C129",
   "status": "proved",
   "theorems": [
    "Finmod.C129_update_exact",
    "Finmod.C129_only_crossed_iff"
   ],
   "note": ""
  },
  {
   "property": "C130",
   "status": "proved",
   "theorems": [
    "Finmod.C130_locks_iff"
   ],
   "note": ""
  },
  {
   "property": "C131",
   "status": "proved",
   "theorems": [
    "Finmod.C131_get_depth_panics_iff"
   ],
   "note": ""
  },
  {
   "property": "C132",
   "status": "proved",
   "theorems": [
    "Finmod.C132_panics_iff"
   ],
   "note": ""
  },
  {
   "property": "C133",
   "status": "proved",
   "theorems": [
    "Finmod.C133_negative_iff",
    "Finmod.C133_short_constant"
   ],
   "note": ""
  },
  {
   "property": "C134",
   "status": "proved",
   "theorems": [
    "Finmod.C134_finite_iff",
    "Finmod.C134_finite_iff_exact"
   ],
   "note": ""
  },
  {
   "property": "C135",
   "status": "proved",
   "theorems": [
    "Finmod.C135_overlap_computed",
    "Finmod.C135_whole_side"
   ],
   "note": ""
  },
  {
   "property": "C136",
   "status": "proved",
   "theorems": [
    "Finmod.C136_nan_iff"
   ],
   "note": ""
  },
  {
   "property": "C137",
   "status": "proved",
   "theorems": [
    "Finmod.C137_loads",
    "Finmod.C137_counts_iff",
    "Finmod.C137_error_otherwise"
   ],
   "note": ""
  },
  {
   "property": "C138",
   "status": "proved",
   "theorems": [
    "Finmod.C138_changes_iff",
    "Finmod.C138_frame"
   ],
   "note": ""
  },
  {
   "property": "C139",
   "status": "proved",
   "theorems": [
    "Finmod.C139_flat_short"
   ],
   "note": ""
  },
  {
   "property": "C140",
   "status": "proved",
   "theorems": [
    "Finmod.C140_only_retracts",
    "Finmod.C140_final_iff"
   ],
   "note": "First part: any candles. The if-and-only-if needs strict time order, no NaN and a price that is not the unbeatable infinity."
  },
  {
   "property": "C141",
   "status": "proved",
   "theorems": [
    "Finmod.C141_accum_right_iff"
   ],
   "note": "Exact arithmetic, positive volumes; the exact condition for C16."
  },
  {
   "property": "C142",
   "status": "proved",
   "theorems": [
    "Finmod.C142_ema_ignores",
    "Finmod.C142_ema_uses_iff"
   ],
   "note": "The exact condition for C71. The second part is exact arithmetic: rounding can hide a change."
  },
  {
   "property": "C143",
   "status": "proved",
   "theorems": [
    "Finmod.C143_complete_iff"
   ],
   "note": "The exact condition for C103, in the same model of failing writes."
  },
  {
   "property": "C144",
   "status": "proved",
   "theorems": [
    "Finmod.C144_plain_symbols_collide_iff"
   ],
   "note": ""
  },
  {
   "property": "C145",
   "status": "proved",
   "theorems": [
    "Finmod.C145_net_amounts",
    "Finmod.C145_order_irrelevant",
    "Finmod.C145_split"
   ],
   "note": "Exact arithmetic. Rounded histories: C111."
  },
  {
   "property": "C146",
   "status": "proved",
   "theorems": [
    "Finmod.C146_span_iff"
   ],
   "note": "The exact condition for C29."
  },
  {
   "property": "C147",
   "status": "proved",
   "theorems": [
    "Finmod.C147_original_log_iff"
   ],
   "note": "One trade on each side after the copy, original first; the exact condition for C101 in that case."
  },
  {
   "property": "C148",
   "status": "proved",
   "theorems": [
    "Finmod.C148_new_mirror",
    "Finmod.C148_update_mirror",
    "Finmod.C148_history_mirror",
    "Finmod.C148_involution"
   ],
   "note": "GetDepth and CalculateOverlap are not covered: the first rejects prices <= 0, the second treats the two sides differently. The sort is the model of sort.SliceStable, which for NaN prices differs from the library."
  },
  {
   "property": "C149",
   "status": "proved",
   "theorems": [
    "Finmod.C149_append",
    "Finmod.C149_range_grows",
    "Finmod.C149_conflict"
   ],
   "note": "Assumes both calls succeed. High and low in IEEE-754 binary64, the rest for any float semantics."
  },
  {
   "property": "C150",
   "status": "proved",
   "theorems": [
    "Finmod.C150_copy_after_set",
    "Finmod.C150_copy_after_delete",
    "Finmod.C150_copy_unchanged_iff"
   ],
   "note": "The exact condition for C106, for one update; strictly sorted books without NaN, sides in separate arrays, any growth policy."
  },
  {
   "property": "C151",
   "status": "proved",
   "theorems": [
    "Finmod.C151_last_close",
    "Finmod.C151_mirror",
    "Finmod.C151_more_candles"
   ],
   "note": "Mirrored prices in exact arithmetic; the higher close for any lawful float semantics (IEEE-754 included)."
  },
  {
   "property": "C152",
   "status": "proved",
   "theorems": [
    "Finmod.C152_stays_top_iff"
   ],
   "note": "One update of both books; the condition speaks of the deeper book before the update."
  },
  {
   "property": "C153",
   "status": "proved",
   "theorems": [
    "Finmod.C153_update_relabel",
    "Finmod.C153_history_relabel",
    "Finmod.C153_new_relabel",
    "Finmod.C153_depth_relabel"
   ],
   "note": "No assumption on the books; the relabelling is any function that keeps `<` and `=` of prices."
  },
  {
   "property": "C154",
   "status": "proved",
   "theorems": [
    "Finmod.C154_unrealized",
    "Finmod.C154_affine"
   ],
   "note": "Exact arithmetic; fee and cost of the trades are free since Modify ignores them."
  },
  {
   "property": "C155",
   "status": "proved",
   "theorems": [
    "Finmod.C155_append",
    "Finmod.C155_forgets",
    "Finmod.C155_scale",
    "Finmod.C155_wider",
    "Finmod.C155_wider_ieee"
   ],
   "note": "Wider candles for any lawful float semantics (IEEE-754 included); forgetting and scaling in exact arithmetic."
  },
  {
   "property": "C156",
   "status": "proved",
   "theorems": [
    "Finmod.C156_relabel"
   ],
   "note": "Any float semantics and any two minute-of-hour functions that agree on the old and the moved times."
  },
  {
   "property": "C157",
   "status": "proved",
   "theorems": [
    "Finmod.C157_unfused",
    "Finmod.C157_ema_accurate",
    "Finmod.C157_smma_accurate",
    "Finmod.C157_volatility_accurate",
    "Finmod.C157_volatility_nonneg"
   ],
   "note": "Covers the multiply-add places of indicators/ma.go and ewv.go; the other indicators have none."
  },
  {
   "property": "C158",
   "status": "proved",
   "theorems": [
    "Finmod.C158_unfused",
    "Finmod.C158_books",
    "Finmod.C158_quantity_and_basis",
    "Finmod.C158_profit",
    "Finmod.C158_fee_accurate",
    "Finmod.C158_fee_of_own_cost"
   ],
   "note": "The multiply-adds of CalculateOverlap are in C159."
  },
  {
   "property": "C159",
   "status": "proved",
   "theorems": [
    "Finmod.C159_unfused",
    "Finmod.C159_overlap_accurate",
    "Finmod.C159_overlap_accurate_plain",
    "Finmod.C159_symmetric",
    "Finmod.C159_overlap_accurate_reversed",
    "Finmod.C159_found_iff"
   ],
   "note": "Error bound against overlapComputed of C135, not against the documented value of C22."
  },
  {
   "property": "C160",
   "status": "proved",
   "theorems": [
    "Finmod.C160_opening",
    "Finmod.C160_no_type",
    "Finmod.C160_record"
   ],
   "note": "The empty fields are the Go zero values; the ID is the fresh xid, a parameter."
  },
  {
   "property": "C161",
   "status": "proved",
   "theorems": [
    "Finmod.Json.C161_row",
    "Finmod.Json.C161_update",
    "Finmod.Json.C161_book",
    "Finmod.Json.C161_candle",
    "Finmod.Json.C161_asset",
    "Finmod.Json.C161_pair",
    "Finmod.Json.C161_ticker",
    "Finmod.Json.C161_balanceSnapshot",
    "Finmod.Json.C161_balance",
    "Finmod.Json.C161_assetsSnapshot",
    "Finmod.Json.C161_trade",
    "Finmod.Json.C161_positionCloseOrder",
    "Finmod.Json.C161_position",
    "Finmod.Json.C161_order",
    "Finmod.Json.C161_orderRequest",
    "Finmod.Json.C161_createOrderAction",
    "Finmod.Json.C161_updateOrderAction",
    "Finmod.Json.C161_cancelOrderAction",
    "Finmod.Json.C161_updatePositionAction",
    "Finmod.Json.C161_closePositionAction",
    "Finmod.Json.C161_annotation",
    "Finmod.Json.C161_fractal"
   ],
   "note": "encoding/json is modelled in Go/Json.lean; the repository declares the tags and leaves the calls to its users. Times are a parameter with a read-back hypothesis."
  },
  {
   "property": "C162",
   "status": "proved",
   "theorems": [
    "Finmod.Json.C162_fractal",
    "Finmod.Json.C162_row",
    "Finmod.Json.C162_update",
    "Finmod.Json.C162_book",
    "Finmod.Json.C162_candle",
    "Finmod.Json.C162_asset",
    "Finmod.Json.C162_pair",
    "Finmod.Json.C162_ticker",
    "Finmod.Json.C162_balanceSnapshot",
    "Finmod.Json.C162_balance",
    "Finmod.Json.C162_assetsSnapshot",
    "Finmod.Json.C162_trade",
    "Finmod.Json.C162_positionCloseOrder",
    "Finmod.Json.C162_position",
    "Finmod.Json.C162_order",
    "Finmod.Json.C162_orderRequest",
    "Finmod.Json.C162_createOrderAction",
    "Finmod.Json.C162_updateOrderAction",
    "Finmod.Json.C162_cancelOrderAction",
    "Finmod.Json.C162_updatePositionAction",
    "Finmod.Json.C162_closePositionAction",
    "Finmod.Json.C162_annotation"
   ],
   "note": "Number texts are those of jsonFloat, which C161 shows read back."
  },
  {
   "property": "C163",
   "status": "proved",
   "theorems": [
    "Finmod.Json.C163_actions",
    "Finmod.Json.C163_actions_order",
    "Finmod.Json.C163_addAnnotationsAction",
    "Finmod.Json.C163_addAnnotationsAction_order",
    "Finmod.Json.C163_tick",
    "Finmod.Json.C163_tick_order",
    "Finmod.Json.C163_fractal",
    "Finmod.Json.C163_fractal_order",
    "Finmod.Json.C163_row",
    "Finmod.Json.C163_row_order",
    "Finmod.Json.C163_update",
    "Finmod.Json.C163_update_order",
    "Finmod.Json.C163_book",
    "Finmod.Json.C163_book_order",
    "Finmod.Json.C163_candle",
    "Finmod.Json.C163_candle_order",
    "Finmod.Json.C163_asset",
    "Finmod.Json.C163_asset_order",
    "Finmod.Json.C163_pair",
    "Finmod.Json.C163_pair_order",
    "Finmod.Json.C163_ticker",
    "Finmod.Json.C163_ticker_order",
    "Finmod.Json.C163_balanceSnapshot",
    "Finmod.Json.C163_balanceSnapshot_order",
    "Finmod.Json.C163_balance",
    "Finmod.Json.C163_balance_order",
    "Finmod.Json.C163_assetsSnapshot",
    "Finmod.Json.C163_assetsSnapshot_order",
    "Finmod.Json.C163_trade",
    "Finmod.Json.C163_trade_order",
    "Finmod.Json.C163_positionCloseOrder",
    "Finmod.Json.C163_positionCloseOrder_order",
    "Finmod.Json.C163_position",
    "Finmod.Json.C163_position_order",
    "Finmod.Json.C163_order",
    "Finmod.Json.C163_order_order",
    "Finmod.Json.C163_orderRequest",
    "Finmod.Json.C163_orderRequest_order",
    "Finmod.Json.C163_createOrderAction",
    "Finmod.Json.C163_createOrderAction_order",
    "Finmod.Json.C163_updateOrderAction",
    "Finmod.Json.C163_updateOrderAction_order",
    "Finmod.Json.C163_cancelOrderAction",
    "Finmod.Json.C163_cancelOrderAction_order",
    "Finmod.Json.C163_updatePositionAction",
    "Finmod.Json.C163_updatePositionAction_order",
    "Finmod.Json.C163_closePositionAction",
    "Finmod.Json.C163_closePositionAction_order",
    "Finmod.Json.C163_annotation",
    "Finmod.Json.C163_annotation_order"
   ],
   "note": "JErr.stop added: an unreadable time ends the reading; C163_trade, C163_order and C163_position restated over the members read (ReadPart)"
  },
  {
   "property": "C164",
   "status": "proved",
   "theorems": [
    "Finmod.C164_trade",
    "Finmod.C164_order",
    "Finmod.C164_position",
    "Finmod.C164_annotation"
   ],
   "note": "Records as in C161: floats finite, times writable."
  },
  {
   "property": "C165",
   "status": "proved",
   "theorems": [
    "Finmod.C165_local",
    "Finmod.C165_location",
    "Finmod.C165_unknown"
   ],
   "note": "The tick itself is a non-nil pointer."
  },
  {
   "property": "C166",
   "status": "proved",
   "theorems": [
    "Finmod.C166_annotation",
    "Finmod.C166_injective"
   ],
   "note": "The fresh xid is an argument of the model."
  },
  {
   "property": "C167",
   "status": "proved",
   "theorems": [
    "Finmod.C167_written",
    "Finmod.C167_text",
    "Finmod.C167_back",
    "Finmod.C167_same_iff",
    "Finmod.C167_unescaped",
    "Finmod.C167_times",
    "Finmod.C167_trade",
    "Finmod.C167_raw_date",
    "Finmod.C167_zero"
   ],
   "note": "Times are compared as instants; the location of the time read is not modelled. The algorithms are those of package time, modelled in Model/TimeText.lean and Model/Date.lean."
  },
  {
   "property": "C168",
   "status": "proved",
   "theorems": [
    "Finmod.Json.C168_actions",
    "Finmod.Json.C168_addAnnotationsAction",
    "Finmod.Json.C168_tick",
    "Finmod.Json.C168_actions_text",
    "Finmod.Json.C168_addAnnotationsAction_text",
    "Finmod.Json.C168_tick_text"
   ],
   "note": "Map keys are valid UTF-8 strings and distinct, as always in Go. The model does not tell nil slices from empty ones (isNil)."
  },
  {
   "property": "C169",
   "status": "proved",
   "theorems": [
    "Finmod.Json.C169_string",
    "Finmod.Json.C169_number",
    "Finmod.Json.C169_zero"
   ],
   "note": "strings and float64 numbers; assumes the encoder picks the shortest digits as strconv documents (the model computes them)"
  },
  {
   "property": "C170",
   "status": "proved",
   "theorems": [
    "Finmod.Json.C170_meaning",
    "Finmod.Json.C170_unique",
    "Finmod.Json.C170_reads",
    "Finmod.Json.C170_rejects"
   ],
   "note": "texts are lists of characters (valid UTF-8); time fields stop reading at once on a bad text, the model goes on"
  },
  {
   "property": "C171",
   "status": "proved",
   "theorems": [
    "Finmod.Json.C171_row",
    "Finmod.Json.C171_update",
    "Finmod.Json.C171_book",
    "Finmod.Json.C171_candle",
    "Finmod.Json.C171_asset",
    "Finmod.Json.C171_pair",
    "Finmod.Json.C171_ticker",
    "Finmod.Json.C171_balanceSnapshot",
    "Finmod.Json.C171_balance",
    "Finmod.Json.C171_assetsSnapshot",
    "Finmod.Json.C171_trade",
    "Finmod.Json.C171_positionCloseOrder",
    "Finmod.Json.C171_position",
    "Finmod.Json.C171_order",
    "Finmod.Json.C171_orderRequest",
    "Finmod.Json.C171_createOrderAction",
    "Finmod.Json.C171_updateOrderAction",
    "Finmod.Json.C171_cancelOrderAction",
    "Finmod.Json.C171_updatePositionAction",
    "Finmod.Json.C171_closePositionAction",
    "Finmod.Json.C171_annotation",
    "Finmod.Json.C171_actions",
    "Finmod.Json.C171_addAnnotationsAction",
    "Finmod.Json.C171_tick",
    "Finmod.Json.C171_float",
    "Finmod.Json.C171_decimal",
    "Finmod.Json.C171_range",
    "Finmod.Json.C171_int",
    "Finmod.Json.C171_reordered",
    "Finmod.Json.C171_fractal"
   ],
   "note": "types taken from the struct declarations by a script; no bound on the size or depth of the text"
  },
  {
   "property": "C172",
   "status": "proved",
   "theorems": [
    "Finmod.Json.C172_survive",
    "Finmod.Json.C172_text",
    "Finmod.Json.C172_refused",
    "Finmod.Json.C172_error"
   ],
   "note": "Over candles of any length; the written digits of floats are those of C161."
  },
  {
   "property": "C173",
   "status": "proved",
   "theorems": [
    "Finmod.C173_texts_unique",
    "Finmod.C173_text",
    "Finmod.C173_special",
    "Finmod.C173_monotone",
    "Finmod.C173_decimal",
    "Finmod.C173_reread",
    "Finmod.C173_row",
    "Finmod.C173_flat"
   ],
   "note": "Numbers only; how a time is written stays a parameter. %f is %.6f."
  },
  {
   "property": "C174",
   "status": "proved",
   "theorems": [
    "Finmod.C174_print",
    "Finmod.C174_string",
    "Finmod.C174_lines"
   ],
   "note": "For any choice of digits that reads back (GoodPick); the shortest digits that Go writes are one (shortest_good)."
  },
  {
   "property": "C175",
   "status": "proved",
   "theorems": [
    "Finmod.C175_text",
    "Finmod.C175_instant",
    "Finmod.C175_order",
    "Finmod.C175_flat",
    "Finmod.C175_close",
    "Finmod.C175_candle"
   ],
   "note": "Offset and abbreviation of the zone at the instant are given; zone data is not modelled. Without whole minutes the text does not show the seconds of the offset (example beside the theorem)."
  },
  {
   "property": "C176",
   "status": "proved",
   "theorems": [
    "Finmod.C176_ema_forgets",
    "Finmod.C176_smma_forgets",
    "Finmod.C176_ema_float",
    "Finmod.C176_smma_float"
   ],
   "note": "Proved in exact arithmetic and, within the C108 bounds, for float64. The volatility part is C155."
  },
  {
   "property": "C177",
   "status": "proved",
   "theorems": [
    "Finmod.C177_moving_average",
    "Finmod.C177_ema",
    "Finmod.C177_smma",
    "Finmod.C177_volatility",
    "Finmod.C177_rsi",
    "Finmod.C177_fractals",
    "Finmod.C177_resample",
    "Finmod.C177_resample_volume"
   ],
   "note": "For every float semantics."
  },
  {
   "property": "C178",
   "status": "proved",
   "theorems": [
    "Finmod.C178_update",
    "Finmod.C178_cannot_delete",
    "Finmod.C178_depth"
   ],
   "note": "For all books, also unsorted ones. NaN prices given to NewOrderBook are not covered (sort.SliceStable with an inconsistent order)."
  },
  {
   "property": "C179",
   "status": "proved",
   "theorems": [
    "Finmod.C179_quantity_stays",
    "Finmod.C179_nan_quantity",
    "Finmod.C179_nan_price",
    "Finmod.C179_open_price_stays"
   ],
   "note": "For every float semantics."
  },
  {
   "property": "C180",
   "status": "proved",
   "theorems": [
    "Finmod.Json.C180_book",
    "Finmod.Json.C180_position"
   ],
   "note": "For every lawful float semantics with digits that read back (Good)."
  },
  {
   "property": "C181",
   "status": "proved",
   "theorems": [
    "Finmod.C181_update",
    "Finmod.C181_history",
    "Finmod.C181_depth",
    "Finmod.C181_new",
    "Finmod.C181_overlap"
   ],
   "note": "ApplyUpdate, GetDepth: no arithmetic, so for every platform; NewOrderBook for every float semantics and a g with g x + g y = g (x + y); overlap in exact arithmetic."
  },
  {
   "property": "C182",
   "status": "proved",
   "theorems": [
    "Go.Sort.C182_elements",
    "Go.Sort.C182_stable",
    "Go.Sort.C182_unique",
    "Finmod.C182_book"
   ],
   "note": "The algorithm of src/sort/zsortfunc.go is modelled step by step and is what the model of NewOrderBook and findFractals uses."
  },
  {
   "property": "C183",
   "status": "proved",
   "theorems": [
    "Finmod.C183_book",
    "Finmod.C183_unique",
    "Finmod.C183_more_rows"
   ],
   "note": "Follows the library algorithm; the bound 20 is its block size."
  },
  {
   "property": "C184",
   "status": "proved",
   "theorems": [
    "Finmod.C184_any_reads",
    "Finmod.C184_read_error"
   ],
   "note": "bufio.Scanner is modelled with its buffer, from knowledge of src/bufio/scan.go."
  },
  {
   "property": "C185",
   "status": "proved",
   "theorems": [
    "Finmod.Json.C185_book",
    "Finmod.Json.C185_assets",
    "Finmod.Json.C185_position",
    "Finmod.Json.C185_order",
    "Finmod.Json.C185_annotations"
   ],
   "note": "Lists read into old elements and into whatever the backing array holds behind them"
  },
  {
   "property": "C186",
   "status": "proved",
   "theorems": [
    "Finmod.Json.C186_reads",
    "Finmod.Json.C186_utf8",
    "Finmod.Json.C186_unmarshal",
    "Finmod.Json.C186_text",
    "Finmod.Json.C186_string",
    "Finmod.Json.C186_survives"
   ],
   "note": "Reading any bytes; strings with invalid UTF-8 written and read; single strings only on the writing side"
  },
  {
   "property": "C187",
   "status": "proved",
   "theorems": [
    "Finmod.Json.C187_update",
    "Finmod.Json.C187_asset",
    "Finmod.Json.C187_pair",
    "Finmod.Json.C187_balance",
    "Finmod.Json.C187_assetsSnapshot",
    "Finmod.Json.C187_trade",
    "Finmod.Json.C187_positionCloseOrder",
    "Finmod.Json.C187_position",
    "Finmod.Json.C187_order",
    "Finmod.Json.C187_orderRequest",
    "Finmod.Json.C187_createOrderAction",
    "Finmod.Json.C187_updateOrderAction",
    "Finmod.Json.C187_cancelOrderAction",
    "Finmod.Json.C187_updatePositionAction",
    "Finmod.Json.C187_closePositionAction",
    "Finmod.Json.C187_annotation",
    "Finmod.Json.C187_refused",
    "Finmod.Json.C187_times"
   ],
   "note": "Go strings of arbitrary bytes inside records; marshalB/emitB written from the library source; maps are in C188"
  },
  {
   "property": "C188",
   "status": "proved",
   "theorems": [
    "Finmod.Json.C188_actions",
    "Finmod.Json.C188_addAnnotationsAction",
    "Finmod.Json.C188_tick"
   ],
   "note": "as C187; EntriesRead relates each map to its reading entry by entry, MapReadsB says which entry stays"
  },
  {
   "property": "C189",
   "status": "proved",
   "theorems": [
    "Finmod.Json.C189_order_of_keys",
    "Finmod.Json.C189_row",
    "Finmod.Json.C189_update",
    "Finmod.Json.C189_book",
    "Finmod.Json.C189_candle",
    "Finmod.Json.C189_asset",
    "Finmod.Json.C189_pair",
    "Finmod.Json.C189_ticker",
    "Finmod.Json.C189_balanceSnapshot",
    "Finmod.Json.C189_balance",
    "Finmod.Json.C189_assetsSnapshot",
    "Finmod.Json.C189_trade",
    "Finmod.Json.C189_positionCloseOrder",
    "Finmod.Json.C189_position",
    "Finmod.Json.C189_order",
    "Finmod.Json.C189_orderRequest",
    "Finmod.Json.C189_createOrderAction",
    "Finmod.Json.C189_updateOrderAction",
    "Finmod.Json.C189_cancelOrderAction",
    "Finmod.Json.C189_updatePositionAction",
    "Finmod.Json.C189_closePositionAction",
    "Finmod.Json.C189_annotation",
    "Finmod.Json.C189_fractal",
    "Finmod.Json.C189_actions",
    "Finmod.Json.C189_addAnnotationsAction",
    "Finmod.Json.C189_tick",
    "Finmod.Json.C189_fractals"
   ],
   "note": "strings of the record written are given as bytes (Spec.*Bytes), the record with characters gives the text; no condition on the numbers"
  },
  {
   "property": "C190",
   "status": "partial",
   "theorems": [
    "Finmod.C190_names_partial",
    "Finmod.C190_other_names_partial",
    "Finmod.C190_names_violated",
    "Finmod.C190_same_fractals_partial",
    "Finmod.C190_same_functions_partial"
   ],
   "note": "False of the code: RSI reports errors as movingAverage, LoadCandlesFromFile as loadCandlesFromFile, ModifyInterval passes on an error of candle.CompressCandle. Proved for the other 20 functions, and exactly what those three report."
  },
  {
   "property": "C191",
   "status": "proved",
   "theorems": [
    "Finmod.C191_newOrderRequest",
    "Finmod.C191_calculateFields",
    "Finmod.C191_assets",
    "Finmod.C191_books",
    "Finmod.C191_records",
    "Finmod.C191_modifyInterval",
    "Finmod.C191_system",
    "Finmod.C191_averages"
   ],
   "note": "Messages are compared as strings; zero means either signed zero."
  },
  {
   "property": "C192",
   "status": "proved",
   "theorems": [
    "Finmod.C192_numbers_back",
    "Finmod.C192_same_refusal"
   ],
   "note": "The minute of a time is a parameter (time zone)."
  },
  {
   "property": "C193",
   "status": "proved",
   "theorems": [
    "Finmod.C193_refused_word"
   ],
   "note": "Readable: as 32-bit integer for the first word, as float64 for the other five (C36-C39 give the grammar)."
  },
  {
   "property": "C194",
   "status": "proved",
   "theorems": [
    "Finmod.C194_schema",
    "Finmod.C194_update",
    "Finmod.C194_depth",
    "Finmod.C194_applyUpdate",
    "Finmod.C194_locationTime",
    "Finmod.C194_strings",
    "Finmod.C194_others",
    "Finmod.C194_same",
    "Finmod.C194_same_readers"
   ],
   "note": "One theorem per group of methods: what survives (C194_schema, C194_update, C194_depth, C194_applyUpdate, C194_locationTime), what panics (C194_strings, C194_others), and agreement with the other model files on non-nil pointers (C194_same, C194_same_readers)."
  },
  {
   "property": "C195",
   "status": "proved",
   "theorems": [
    "Finmod.C195_save",
    "Finmod.C195_print"
   ],
   "note": "SaveCandlesToFile and Print: the effect made before the pointer is first read."
  },
  {
   "property": "C196",
   "status": "proved",
   "theorems": [
    "Finmod.C196_rsi",
    "Finmod.C196_rsi_extremes",
    "Finmod.C196_movingAverage",
    "Finmod.C196_smoothed"
   ],
   "note": "Equality with the unbounded-integer model for every width of int; RSI for every period."
  },
  {
   "property": "C197",
   "status": "proved",
   "theorems": [
    "Finmod.C197_movingAverage",
    "Finmod.C197_exponential",
    "Finmod.C197_smoothed",
    "Finmod.C197_volatility",
    "Finmod.C197_fractals",
    "Finmod.C197_minInterval",
    "Finmod.C197_modifyInterval",
    "Finmod.C197_modifyInterval_one",
    "Finmod.C197_save"
   ],
   "note": "Rely-style: the memory may change arbitrarily between any two reads, except for the candles passed."
  },
  {
   "property": "C198",
   "status": "partial",
   "theorems": [
    "Finmod.C198_rsi_violated",
    "Finmod.C198_rsi_partial"
   ],
   "note": "False of the code: C198_rsi_violated; C198_rsi_partial says what holds (the candle behind the slice must not be written either)."
  },
  {
   "property": "C199",
   "status": "proved",
   "theorems": [
    "Finmod.C199_moving_average",
    "Finmod.C199_ema",
    "Finmod.C199_smma",
    "Finmod.C199_period_one",
    "Finmod.C199_volatility"
   ],
   "note": "Finite closes only; what NaN closes do is C177. The exponential average for binary64, the rest for every lawful rounding."
  },
  {
   "property": "C200",
   "status": "proved",
   "theorems": [
    "Finmod.C200_underflow"
   ],
   "note": "Float64 only; NaN and infinite amounts are in C55 and C134."
  },
  {
   "property": "C201",
   "status": "proved",
   "theorems": [
    "Finmod.C201_infinite_quantity",
    "Finmod.C201_add",
    "Finmod.C201_infinite_price"
   ],
   "note": "Open price and quantity of the position are finite or +Inf; NaN amounts are in C179. Negative prices are not covered."
  },
  {
   "property": "C202",
   "status": "proved",
   "theorems": [
    "Finmod.C202_any_changes",
    "Finmod.C202_one_moment",
    "Finmod.C202_during_save",
    "Finmod.C202_across_create"
   ],
   "note": "The reads of the operating system are atomic and return bytes of the current contents at the offset of the open file; with os.Create before the first read the hypothesis of C202_during_save holds."
  },
  {
   "property": "C203",
   "status": "proved",
   "theorems": [
    "Finmod.C203_bytes",
    "Finmod.C203_same_candles",
    "Finmod.C203_same_candles_load",
    "Finmod.C203_last_alone"
   ],
   "note": "Each Fprintln is one write, and all writes are taken to succeed."
  },
  {
   "property": "C204",
   "status": "proved",
   "theorems": [
    "Finmod.C204_updates",
    "Finmod.C204_apart",
    "Finmod.C204_no_race",
    "Finmod.C204_finish"
   ],
   "note": "Interleaving of single reads and writes of whole rows, sequentially consistent; since no races exist (C204_no_race) the Go memory model allows no other behaviour. Slice headers and MaxDepth of a book belong to its goroutine."
  },
  {
   "property": "C205",
   "status": "proved",
   "theorems": [
    "Finmod.C205_answers",
    "Finmod.C205_no_race",
    "Finmod.C205_sharing"
   ],
   "note": "As C204. C205_sharing shows by a concrete schedule that the condition on shared books cannot be dropped."
  },
  {
   "property": "C206",
   "status": "proved",
   "theorems": [
    "Finmod.C206_read",
    "Finmod.C206_accepted"
   ],
   "note": "Package time is modelled from knowledge of it. The statement is about the text inside the quotes, after JSON unescaping."
  },
  {
   "property": "C207",
   "status": "proved",
   "theorems": [
    "Finmod.C207_codes",
    "Finmod.C207_volume",
    "Finmod.C207_bounded"
   ],
   "note": "Error codes and special volumes of ModifyInterval for all inputs. The classification of C30 is sharpened to every input, without the bounds on times."
  },
  {
   "property": "C208",
   "status": "proved",
   "theorems": [
    "Finmod.C208_minInterval"
   ],
   "note": "Composition of ModifyInterval and GetMinInterval on regular series."
  },
  {
   "property": "C209",
   "status": "proved",
   "theorems": [
    "Finmod.C209_sides_apart",
    "Finmod.C209_interleaving",
    "Finmod.C209_two_updates",
    "Finmod.C209_crossing_matters"
   ],
   "note": "Props/BookConverge.lean. NonCrossing looks at the book at the moment of each update; the updates of one side alone need not be non-crossing."
  },
  {
   "property": "C210",
   "status": "proved",
   "theorems": [
    "Finmod.C210_rows",
    "Finmod.C210_converge",
    "Finmod.C210_room_needed"
   ],
   "note": "Props/BookConverge.lean. The latest update at a price is found by comparing prices as floats (0 and -0 are one price); the row shows the price as that update wrote it."
  },
  {
   "property": "C211",
   "status": "proved",
   "theorems": [
    "Finmod.C211_overlap_value",
    "Finmod.C211_special_values",
    "Finmod.C211_sold_unique"
   ],
   "note": "Props/OverlapExtremes.lean. C211_overlap_value holds for every arithmetic, C211_special_values for every lawful one; C211_sold_unique says that the proceeds are determined. NaN arises from +Inf - +Inf and is returned without an error."
  },
  {
   "property": "C212",
   "status": "proved",
   "theorems": [
    "Finmod.C212_steps",
    "Finmod.C212_exact",
    "Finmod.C212_float64"
   ],
   "note": "Every step is the model of one call; the bound is about the three roundings of the quotient, the difference and the product."
  },
  {
   "property": "C213",
   "status": "proved",
   "theorems": [
    "Finmod.C213_averages",
    "Finmod.C213_rsi",
    "Finmod.C213_volatility",
    "Finmod.C213_fractals",
    "Finmod.C213_closes",
    "Finmod.C213_resampled"
   ],
   "note": "Equality of results for any two series that agree on the fields read, in every arithmetic. RSI also takes the candles behind the slice, of which again only the closes count."
  },
  {
   "property": "C214",
   "status": "proved",
   "theorems": [
    "Finmod.C214_position",
    "Finmod.C214_history",
    "Finmod.C214_unrealized",
    "Finmod.C214_request",
    "Finmod.C214_new_book",
    "Finmod.C214_overlap",
    "Finmod.C214_depth"
   ],
   "note": "Equality of results for any two arguments that agree on the fields read, in every arithmetic. That ApplyUpdate does not read AccumVolume is C153."
  },
  {
   "property": "C215",
   "status": "proved",
   "theorems": [
    "Finmod.C215_values",
    "Finmod.C215_pipeline",
    "Finmod.C215_float64"
   ],
   "note": "The float64 statement prints with the shortest digits, as fmt does; the statement for other roundings assumes digits that read back."
  },
  {
   "property": "C216",
   "status": "proved",
   "theorems": [
    "Finmod.C216_self",
    "Finmod.C216_far_rows",
    "Finmod.C216_far_update"
   ],
   "note": "The condition that a row lies beyond before and after is needed: the code leaves its index at 0 when no row lies beyond (C135), and an example shows the overlap changing when the last such ask is deleted."
  },
  {
   "property": "C217",
   "status": "proved",
   "theorems": [
    "Finmod.C217_averages",
    "Finmod.C217_volatility"
   ],
   "note": "Exact arithmetic; the float64 values are within the bounds of C107 to C109 of the exact ones. RSI is not linear."
  },
  {
   "property": "C218",
   "status": "proved",
   "theorems": [
    "Finmod.C218_heal",
    "Finmod.C218_replay",
    "Finmod.C218_around"
   ],
   "note": "Room is needed (C210), and so is not crossing (C209)."
  },
  {
   "property": "C219",
   "status": "proved",
   "theorems": [
    "Finmod.C219_resampled"
   ],
   "note": "Prices are equal as numbers: a group with highs 0 and -0 may show either."
  },
  {
   "property": "C220",
   "status": "proved",
   "theorems": [
    "Finmod.C220_feeds",
    "Finmod.C220_one_price"
   ],
   "note": "The calls do not overlap: the book has no lock of its own, and overlapping calls are what C205 warns of."
  },
  {
   "property": "C221",
   "status": "proved",
   "theorems": [
    "Finmod.C221_bytes",
    "Finmod.C221_taken",
    "Finmod.C221_last_alone",
    "Finmod.C221_same_candles",
    "Finmod.C221_full_disk",
    "Finmod.C221_spoiled"
   ],
   "note": "A refused os.Create is taken not to change the file."
  },
  {
   "property": "C222",
   "status": "proved",
   "theorems": [
    "Finmod.C222_own_rows",
    "Finmod.C222_finish",
    "Finmod.C222_same_rows"
   ],
   "note": "The code writes only the field AccumVolume where the model writes the whole row as read; with rows of one's own this is the same."
  },
  {
   "property": "C223",
   "status": "proved",
   "theorems": [
    "Finmod.C223_answers",
    "Finmod.C223_no_race",
    "Finmod.C223_apart",
    "Finmod.C223_finish"
   ],
   "note": "A field of struct or string type is read and written whole; memory is sequentially consistent (without a race Go promises that); the trade given belongs to the goroutine."
  },
  {
   "property": "C224",
   "status": "proved",
   "theorems": [
    "Finmod.C224_marks",
    "Finmod.C224_writer",
    "Finmod.C224_reached"
   ],
   "note": "There is a data race, and then Go itself does not promise sequentially consistent memory; the claim is about interleavings, as on machines where a word is read and written whole and in order."
  },
  {
   "property": "C225",
   "status": "proved",
   "theorems": [
    "Finmod.C225_lost"
   ],
   "note": "See C224 for the data race."
  },
  {
   "property": "C226",
   "status": "proved",
   "theorems": [
    "Finmod.C226_known",
    "Finmod.C226_traded",
    "Finmod.C226_missing",
    "Finmod.C226_pair"
   ],
   "note": "The table of names is written twice, in the model and in the specification."
  },
  {
   "property": "C227",
   "status": "proved",
   "theorems": [
    "Finmod.C227_price",
    "Finmod.C227_total",
    "Finmod.C227_names"
   ],
   "note": ""
  },
  {
   "property": "C228",
   "status": "proved",
   "theorems": [
    "Finmod.C228_receiver",
    "Finmod.C228_value",
    "Finmod.C228_maps",
    "Finmod.C228_annotations"
   ],
   "note": "AddAnnotations reads its arguments before it writes (as append does)."
  },
  {
   "property": "C229",
   "status": "proved",
   "theorems": [
    "Finmod.C229_update_alone",
    "Finmod.C229_depth_alone",
    "Finmod.C229_print_alone",
    "Finmod.C229_readers"
   ],
   "note": "Unlike in C204 and C205 the slice headers are in memory too."
  },
  {
   "property": "C230",
   "status": "proved",
   "theorems": [
    "Finmod.C230_lost_ask",
    "Finmod.C230_lost_bid"
   ],
   "note": "ApplyUpdate takes no lock; the caller has to."
  },
  {
   "property": "C231",
   "status": "proved",
   "theorems": [
    "Finmod.C231_depth",
    "Finmod.C231_depth_bids",
    "Finmod.C231_print"
   ],
   "note": "The loops read the slice header anew in every round but its length only at the start."
  },
  {
   "property": "C232",
   "status": "proved",
   "theorems": [
    "Finmod.C232_alone",
    "Finmod.C232_no_race",
    "Finmod.C232_finish"
   ],
   "note": "xid.New is one step and safe for goroutines; its uniqueness is assumed (injective generator)."
  },
  {
   "property": "C233",
   "status": "proved",
   "theorems": [
    "Finmod.C233_lost",
    "Finmod.C233_map_race",
    "Finmod.C233_lost_annotations"
   ],
   "note": "The Add methods take no lock; the caller has to."
  },
  {
   "property": "C234",
   "status": "proved",
   "theorems": [
    "Finmod.C234_movingAverage",
    "Finmod.C234_exponential",
    "Finmod.C234_smoothed"
   ],
   "note": "Only the Close of the candle is used, one machine word."
  },
  {
   "property": "C235",
   "status": "proved",
   "theorems": [
    "Finmod.C235_volatility",
    "Finmod.C235_save"
   ],
   "note": "A candle is read whole; in Go the copy is made word by word."
  },
  {
   "property": "C236",
   "status": "proved",
   "theorems": [
    "Finmod.C236_windows",
    "Finmod.C236_mixed"
   ],
   "note": "The caller has to lock the candles or pass a copy."
  },
  {
   "property": "C237",
   "status": "partial",
   "theorems": [
    "Finmod.C237_rsi_violated",
    "Finmod.C237_rsi_partial"
   ],
   "note": "False of the code: a candle replaced while RSI reads it gives values of no moment. Each access candles[i] of the source is a read of its own; a compiler may merge them."
  },
  {
   "property": "C238",
   "status": "proved",
   "theorems": [
    "Finmod.C238_modifyInterval",
    "Finmod.C238_covers"
   ],
   "note": "A read takes one whole candle; times and volumes of growing candles are not restricted."
  },
  {
   "property": "C239",
   "status": "proved",
   "theorems": [
    "Finmod.Shared.C239_sure",
    "Finmod.Shared.C239_possible",
    "Finmod.Shared.C239_steady"
   ],
   "note": "A read takes one whole candle."
  },
  {
   "property": "C240",
   "status": "proved",
   "theorems": [
    "Finmod.C240_modifyInterval",
    "Finmod.C240_covers"
   ],
   "note": "The fields themselves are read whole (64 bits)."
  },
  {
   "property": "C241",
   "status": "partial",
   "theorems": [
    "Finmod.C241_volatility_violated",
    "Finmod.C241_negative",
    "Finmod.C241_volatility_partial"
   ],
   "note": "False of the code: high and low are read in two steps. The range loop copies the candle, which is more than one machine word."
  },
  {
   "property": "C242",
   "status": "partial",
   "theorems": [
    "Finmod.C242_memory",
    "Finmod.C242_one_candle",
    "Finmod.C242_result_violated",
    "Finmod.C242_result_partial"
   ],
   "note": "False of the code: the result for one candle is the caller's slice. Cells hold whole candles; candles contain no pointers."
  },
  {
   "property": "C243",
   "status": "partial",
   "theorems": [
    "Finmod.Shared.C243_modifyInterval_partial",
    "Finmod.Shared.C243_modifyInterval_violated",
    "Finmod.Shared.C243_above"
   ],
   "note": "False of the code: the last candle is read in several steps. With one candle ModifyInterval reads nothing (C242)."
  },
  {
   "property": "C244",
   "status": "proved",
   "theorems": [
    "Finmod.Shared.C244_averages",
    "Finmod.Shared.C244_rsi",
    "Finmod.Shared.C244_volatility",
    "Finmod.Shared.C244_fractals",
    "Finmod.Shared.C244_minInterval"
   ],
   "note": "ModifyInterval reads every field (C243)."
  },
  {
   "property": "C245",
   "status": "proved",
   "theorems": [
    "Finmod.C245_mark"
   ],
   "note": "The exact counterparts are C42 and C145."
  },
  {
   "property": "C246",
   "status": "partial",
   "theorems": [
    "Finmod.C246_first_gap_partial",
    "Finmod.C246_unchanged",
    "Finmod.C246_gap_violated"
   ],
   "note": "False of the code: with the second candle missing the interval is refused. Partial: it is accepted whenever the first two candles are that interval apart. For complete series see C32 and C208."
  },
  {
   "property": "C247",
   "status": "partial",
   "theorems": [
    "Finmod.C247_join_partial",
    "Finmod.C247_within_hour",
    "Finmod.C247_cut_violated"
   ],
   "note": "False of the code for intervals that do not divide the hour. Partial: parts whose starts are a multiple of the interval apart. See C149 for a series that grows."
  },
  {
   "property": "C248",
   "status": "partial",
   "theorems": [
    "Finmod.C248_hours_partial",
    "Finmod.C248_divides_partial",
    "Finmod.C248_half_hours",
    "Finmod.C248_zone_violated"
   ],
   "note": "False of the code: two hourly candles, UTC and UTC+5:30. Partial: zones whole hours apart; intervals dividing the hour, zones a multiple of them apart."
  },
  {
   "property": "C249",
   "status": "partial",
   "theorems": [
    "Finmod.C249_moving_average_partial",
    "Finmod.C249_rsi",
    "Finmod.C249_fractals_partial",
    "Finmod.C249_fractals_violated",
    "Finmod.C249_volatility",
    "Finmod.C249_recursive_violated",
    "Finmod.C249_parts_violated"
   ],
   "note": "False of the code for the recursive averages and for fractals with ties. Partial: moving averages and RSI always, fractals without ties."
  },
  {
   "property": "C250",
   "status": "partial",
   "theorems": [
    "Finmod.C250_join_partial",
    "Finmod.C250_first_fails",
    "Finmod.C250_long_line",
    "Finmod.C250_saved",
    "Finmod.C250_join_violated"
   ],
   "note": "False of the code: a first file with its last line not ended. Partial: every file that is empty or ends with a line feed, no line above 65535 bytes."
  },
  {
   "property": "C251",
   "status": "partial",
   "theorems": [
    "Finmod.C251_near_partial",
    "Finmod.C251_order_violated"
   ],
   "note": "False of the code in float64. Partial: bounds on the differences."
  },
  {
   "property": "C252",
   "status": "partial",
   "theorems": [
    "Finmod.C252_minInterval",
    "Finmod.C252_moving_average",
    "Finmod.C252_rsi",
    "Finmod.C252_fractals",
    "Finmod.C252_swapped_partial",
    "Finmod.C252_newest_first_violated"
   ],
   "note": "False of the code: ModifyInterval swaps opens and closes of a descending series without an error. C252_swapped_partial says what it gives."
  },
  {
   "property": "C253",
   "status": "proved",
   "theorems": [
    "Finmod.C253_profit",
    "Finmod.C253_profit_float"
   ],
   "note": "Trades may have an ExecutionID set later."
  },
  {
   "property": "C254",
   "status": "partial",
   "theorems": [
    "Finmod.C254_before",
    "Finmod.C254_twice_partial",
    "Finmod.C254_minInterval",
    "Finmod.C254_first",
    "Finmod.C254_twice_violated"
   ],
   "note": "False of the code: a repeated candle is counted twice in the volume, or gives an additional output candle. Proved: which of the two happens, and that nothing else changes (C254_twice_partial, C254_before); GetMinInterval is 0; panic when the first candle is repeated."
  },
  {
   "property": "C255",
   "status": "partial",
   "theorems": [
    "Finmod.C255_kept_partial",
    "Finmod.C255_kept_many",
    "Finmod.C255_new",
    "Finmod.C255_twice_violated"
   ],
   "note": "False of the code: with its third candle repeated, a series of six candles has an up fractal that it has not otherwise. Proved: no fractal is lost (C255_kept_partial, C255_kept_many) and where a new one can be (C255_new)."
  },
  {
   "property": "C256",
   "status": "partial",
   "theorems": [
    "Finmod.C256_unchanged_iff",
    "Finmod.C256_refused",
    "Finmod.C256_closing_partial",
    "Finmod.C256_added",
    "Finmod.C256_reduced",
    "Finmod.C256_twice_violated"
   ],
   "note": "False of the code: Modify counts a repeated trade again, although it records the IDs. Proved: what exactly the repetition does in each case (C256_unchanged_iff, C256_refused, C256_closing_partial, C256_added, C256_reduced)."
  },
  {
   "property": "C257",
   "status": "proved",
   "theorems": [
    "Finmod.C257_prints",
    "Finmod.C257_position",
    "Finmod.C257_balance"
   ],
   "note": "fmt's handling of panics is modelled from knowledge of fmt/print.go; the texts of the two run-time errors too."
  },
  {
   "property": "C258",
   "status": "partial",
   "theorems": [
    "Finmod.C258_new",
    "Finmod.C258_set_partial",
    "Finmod.C258_delete_partial",
    "Finmod.C258_gone",
    "Finmod.C258_twice_violated"
   ],
   "note": "False of the code: of two rows at one price an update sets one and the other keeps its old volume. Proved: what an update does to the first row, and that the others stay."
  },
  {
   "property": "C259",
   "status": "proved",
   "theorems": [
    "Finmod.C259_self",
    "Finmod.C259_ask",
    "Finmod.C259_bid",
    "Finmod.C259_delete",
    "Finmod.C259_ask_below_all",
    "Finmod.C259_bid_above_all"
   ],
   "note": "The panics with an empty side are those of C20's excluded case."
  },
  {
   "property": "C260",
   "status": "proved",
   "theorems": [
    "Finmod.C260_averages",
    "Finmod.C260_volatility",
    "Finmod.C260_position",
    "Finmod.C260_unrealized"
   ],
   "note": ""
  },
  {
   "property": "C261",
   "status": "proved",
   "theorems": [
    "Finmod.C261_units",
    "Finmod.C261_upside_down"
   ],
   "note": ""
  },
  {
   "property": "C262",
   "status": "proved",
   "theorems": [
    "Finmod.C262_averages",
    "Finmod.C262_noise",
    "Finmod.C262_volatility"
   ],
   "note": ""
  },
  {
   "property": "C263",
   "status": "partial",
   "theorems": [
    "Finmod.C263_ask_partial",
    "Finmod.C263_bid_partial",
    "Finmod.C263_room_partial",
    "Finmod.C263_taken_back_violated"
   ],
   "note": "False of the code: in a full book the worst row is lost. Partial: if the level does not cross the other side, the book is as before when the side had room or the level came last, and its side is cut to MaxDepth - 1 rows otherwise."
  },
  {
   "property": "C264",
   "status": "proved",
   "theorems": [
    "Finmod.C264_apart",
    "Finmod.C264_count"
   ],
   "note": ""
  },
  {
   "property": "C265",
   "status": "partial",
   "theorems": [
    "Finmod.C265_logged",
    "Finmod.C265_exact_partial",
    "Finmod.C265_near_partial",
    "Finmod.C265_zero_violated"
   ],
   "note": "False of the code in float64: 0.1 times 3, divided by 3, is not 0.1, so the open price moves. Partial: exact without rounding; in float64 only the open price and the log change, and the open price by at most 3*2^-53 of itself plus 2^-1075 (1 + 2/q)."
  },
  {
   "property": "C266",
   "status": "partial",
   "theorems": [
    "Finmod.C266_trend_partial",
    "Finmod.C266_near_partial",
    "Finmod.C266_ma_partial",
    "Finmod.C266_trend_violated"
   ],
   "note": "False of the code in float64: with all closes 0.1 and period 3 ExponentialMovingAverage falls from 0.10000000000000002 to 0.1, with all closes 0.3 and period 7 SmoothedMovingAverage falls from 0.3 to 0.29999999999999993. Partial: without rounding all three follow the trend, strictly if the closes do, and stay behind it; in float64 MovingAverage does; the other two fall by no more than a rounding error that does not grow with the series."
  },
  {
   "property": "C267",
   "status": "partial",
   "theorems": [
    "Finmod.C267_near_partial",
    "Finmod.C267_fills_violated"
   ],
   "note": "False of the code in float64: a position of 1 unit that gets 2^-52 units more grows, but not when they come as two fills of 2^-53. Partial: quantities differ by at most 2*n*2^-53 of the quantity traded, where n counts the trades logged on both sides, cost bases by 32*n*2^-53 of the turnover (plus n*2^-800), marks by 38*n*2^-53 of turnover and price times quantity traded (plus n*2^-799)."
  },
  {
   "property": "C268",
   "status": "proved",
   "theorems": [
    "Finmod.C268_booked",
    "Finmod.C268_history",
    "Finmod.C268_profit"
   ],
   "note": "In every float arithmetic, NaN and infinities included (C42 says it in exact arithmetic, for the exact quantity)."
  },
  {
   "property": "C269",
   "status": "proved",
   "theorems": [
    "Finmod.C269_keeps",
    "Finmod.C269_average",
    "Finmod.C269_fractals"
   ],
   "note": "In every float arithmetic; the part on averages for non-negative closes and periods up to 2^53."
  },
  {
   "property": "C270",
   "status": "partial",
   "theorems": [
    "Finmod.C270_ahead_partial",
    "Finmod.C270_near_partial",
    "Finmod.C270_ahead_violated"
   ],
   "note": "False of the code in float64: with all closes 0.1 each of the three averages with period 3 is 0.10000000000000002 and with period 1 it is 0.1. Partial: without rounding it holds for all three, rising and falling; in float64 the shorter average is behind by at most the two rounding errors."
  },
  {
   "property": "C271",
   "status": "partial",
   "theorems": [
    "Finmod.C271_lags_partial",
    "Finmod.C271_near_partial",
    "Finmod.C271_lags_violated"
   ],
   "note": "False of the code: ExponentialMovingAverage leaves out a close, so of the closes 1, 1, 3, 3 at period 2 the smoothed averages at the last two candles are 2 and 2.5 and the exponential ones 1 and 2.33; in float64 with all closes 1.3 and period 7 MovingAverage is 1.3 and the second smoothed average is 1.3000000000000003. Partial: without rounding MovingAverage of the same or a shorter period is ahead at every candle, ExponentialMovingAverage one candle later; in float64 MovingAverage is behind by at most the two rounding errors."
  },
  {
   "property": "C272",
   "status": "proved",
   "theorems": [
    "Finmod.C272_grows",
    "Finmod.C272_grows_ieee",
    "Finmod.C272_wider"
   ],
   "note": ""
  },
  {
   "property": "C273",
   "status": "partial",
   "theorems": [
    "Finmod.C273_memory_partial",
    "Finmod.C273_near_partial",
    "Finmod.C273_memory_violated"
   ],
   "note": "False of the code in float64: of 24 candles from 1 to 4 the volatility with beta 0.1 is 3, with beta 0.2 it is 3.0000000000000004. Partial: without rounding it holds for all betas, and the volatility does not exceed the range of the last candle; in float64 it fails by at most the two rounding errors, which do not grow with the series."
  },
  {
   "property": "C274",
   "status": "proved",
   "theorems": [
    "Finmod.C274_coarse",
    "Finmod.C274_near"
   ],
   "note": ""
  },
  {
   "property": "C275",
   "status": "proved",
   "theorems": [
    "Finmod.Json.C275_actions",
    "Finmod.Json.C275_tick",
    "Finmod.Json.C275_pointers"
   ],
   "note": ""
  },
  {
   "property": "C276",
   "status": "partial",
   "theorems": [
    "Finmod.C276_between_violated",
    "Finmod.C276_between_partial",
    "Finmod.C276_adding_partial",
    "Finmod.C276_near_partial"
   ],
   "note": "False of the code: partial closes move OpenPrice out of the range of the prices, also below zero. C276_between_violated; how far is bounded in C276_between_partial and C276_near_partial, and C276_adding_partial holds without partial closes."
  },
  {
   "property": "C277",
   "status": "proved",
   "theorems": [
    "Finmod.C277_profit",
    "Finmod.C277_near"
   ],
   "note": ""
  },
  {
   "property": "C278",
   "status": "partial",
   "theorems": [
    "Finmod.C278_spread_violated",
    "Finmod.C278_spread_partial",
    "Finmod.C278_near_partial"
   ],
   "note": "False of the code: asks without a buyer count with their full cost. C278_spread_violated; C278_spread_partial and C278_near_partial say when the bound holds and what holds always."
  },
  {
   "property": "C279",
   "status": "proved",
   "theorems": [
    "Finmod.C279_mark",
    "Finmod.C279_near"
   ],
   "note": ""
  },
  {
   "property": "C280",
   "status": "proved",
   "theorems": [
    "Finmod.C280_moves",
    "Finmod.C280_near"
   ],
   "note": "Exact arithmetic and float64; the bound of the moving average is reached (example)."
  },
  {
   "property": "C281",
   "status": "partial",
   "theorems": [
    "Finmod.C281_one_price_violated",
    "Finmod.C281_loss_violated",
    "Finmod.C281_one_price_partial",
    "Finmod.C281_near_partial"
   ],
   "note": "False of the code: in float64 a partial close at the price of the opening changes OpenPrice (C281_one_price_violated); exact arithmetic and the float64 error bound are proved."
  },
  {
   "property": "C282",
   "status": "proved",
   "theorems": [
    "Finmod.C282_step",
    "Finmod.C282_near"
   ],
   "note": "Exact arithmetic and float64; the bound is reached by the first candle (example)."
  },
  {
   "property": "C283",
   "status": "proved",
   "theorems": [
    "Finmod.C283_keys",
    "Finmod.C283_quotes",
    "Finmod.C283_reach"
   ],
   "note": "The table is finite and the evaluation covers all of it; the lookup is then treated for all strings."
  },
  {
   "property": "C284",
   "status": "partial",
   "theorems": [
    "Finmod.C284_middle_violated",
    "Finmod.C284_middle_partial",
    "Finmod.C284_near_partial"
   ],
   "note": "False of the code: in float64 a small net rise after large swings gives exactly 50 (C284_middle_violated); exact arithmetic and the float64 bound are proved."
  },
  {
   "property": "C285",
   "status": "partial",
   "theorems": [
    "Finmod.C285_direction_violated",
    "Finmod.C285_direction_partial",
    "Finmod.C285_near_partial"
   ],
   "note": "False of the code: in float64 a small rise is rounded away (C285_direction_violated); exact arithmetic and the float64 bound are proved."
  },
  {
   "property": "C286",
   "status": "proved",
   "theorems": [
    "Finmod.C286_divided",
    "Finmod.C286_near"
   ],
   "note": "Exact arithmetic, and float64 within the bounds of C112."
  },
  {
   "property": "C287",
   "status": "proved",
   "theorems": [
    "Finmod.C287_together",
    "Finmod.C287_worth",
    "Finmod.C287_near"
   ],
   "note": "Exact arithmetic, and float64 within the bounds of C112 and C245."
  },
  {
   "property": "C288",
   "status": "proved",
   "theorems": [
    "Finmod.C288_position",
    "Finmod.C288_ticker",
    "Finmod.C288_snapshot",
    "Finmod.C288_request",
    "Finmod.C288_fractal"
   ],
   "note": "A time read from the clock also shows a monotonic reading, which is not modelled."
  },
  {
   "property": "C289",
   "status": "proved",
   "theorems": [
    "Finmod.C289_order",
    "Finmod.C289_trade"
   ],
   "note": "A time read from the clock also shows a monotonic reading, which is not modelled."
  },
  {
   "property": "C290",
   "status": "proved",
   "theorems": [
    "Finmod.C290_balance",
    "Finmod.C290_close",
    "Finmod.C290_assets"
   ],
   "note": "An example shows two assets with a : that print alike."
  }
 ]
}
