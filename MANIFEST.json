{
 "claims": [
  {
   "property": "C01",
   "status": "partial",
   "theorems": [
    "Klick.Props.C01_varuint_roundtrip_false",
    "Klick.Props.C01_varuint_roundtrip_partial",
    "Klick.Props.C01_varuint_exact"
   ],
   "note": "False of the code from 2^63 on (writer stops after nine 7-bit groups): refuted by C01_varuint_roundtrip_false; proved for all values below 2^63; C01_varuint_exact describes all u64."
  },
  {
   "property": "C02",
   "status": "proved",
   "theorems": [
    "Klick.Props.C02_varuint_total",
    "Klick.Props.C02_varuint_write_bounded"
   ],
   "note": ""
  },
  {
   "property": "C03",
   "status": "proved",
   "theorems": [
    "Klick.Props.C03_string_roundtrip",
    "Klick.Props.C03_string_oversize_refused",
    "Klick.Props.C03_oversize_any",
    "Klick.Props.C03_string_never_panics",
    "Klick.Props.C03_text_roundtrip",
    "Klick.Props.C03_text_fails_iff_invalid"
   ],
   "note": "Allocation is not modelled; the refusal happens before any body byte is consumed."
  },
  {
   "property": "C04",
   "status": "proved",
   "theorems": [
    "Klick.Props.C04_scalar_layout",
    "Klick.Props.C04_scalar_exact"
   ],
   "note": ""
  },
  {
   "property": "C05",
   "status": "proved",
   "theorems": [
    "Klick.Props.C05_fixed_string",
    "Klick.Props.C05_lossless_iff"
   ],
   "note": ""
  },
  {
   "property": "C06",
   "status": "proved",
   "theorems": [
    "Klick.Props.C06_column_roundtrip",
    "Klick.Props.C06_covers_validated",
    "Klick.Props.C06_canon_idem",
    "Klick.Props.C06_canonAll_idem"
   ],
   "note": "For well-formed types (all types accepted by validation, C06_covers_validated) and columns within the 2^30-row limit the reader enforces; canon is the normal form (FixedString cut, byte arrays as strings, UInt8 in Int8 columns)."
  },
  {
   "property": "C07",
   "status": "partial",
   "theorems": [
    "Klick.Props.C07_row_count_false",
    "Klick.Props.C07_row_count_partial",
    "Klick.Props.C07_row_count_le"
   ],
   "note": "False of the code for LowCardinality (flags announcing neither dictionary): C07_row_count_false; exact count proved for all types but LowCardinality itself (bare or inside Nullable), arrays, maps and tuples of it included; upper bound for all."
  },
  {
   "property": "C08",
   "status": "partial",
   "theorems": [
    "Klick.Props.C08_no_panic_false_debug",
    "Klick.Props.C08_no_panic_false_map",
    "Klick.Props.C08_no_panic_false_lc_map",
    "Klick.Props.C08_no_panic_false_fixed",
    "Klick.Props.C08_no_panic_false",
    "Klick.Props.C08_no_panic_partial",
    "Klick.Props.C08_orderly_partial"
   ],
   "note": "False of the code (decreasing array offsets in debug builds, map offsets in all builds, short dictionary columns of map keys, FixedString lengths of 2^63 and more). Proved: every stream for types without maps (C08_no_panic_partial); every accepted type in every build where offsets do not decrease and dictionary columns of maps are complete (C08_orderly_partial)."
  },
  {
   "property": "C09",
   "status": "proved",
   "theorems": [
    "Klick.Props.C09_array_layout",
    "Klick.Props.C09_last_offset",
    "Klick.Props.C09_map_layout"
   ],
   "note": ""
  },
  {
   "property": "C10",
   "status": "proved",
   "theorems": [
    "Klick.Props.C10_low_cardinality"
   ],
   "note": ""
  },
  {
   "property": "C11",
   "status": "proved",
   "theorems": [
    "Klick.Props.C11_nullable_write",
    "Klick.Props.C11_nullable_read"
   ],
   "note": ""
  },
  {
   "property": "C12",
   "status": "partial",
   "theorems": [
    "Klick.Props.C12_false_long_tuple",
    "Klick.Props.C12_false_short_tuple",
    "Klick.Props.C12_false_ragged_map",
    "Klick.Props.C12_false_null_point",
    "Klick.Props.C12_validated_serialises_false",
    "Klick.Props.C12_validated_serialises_partial",
    "Klick.Props.C12_storable_accepted"
   ],
   "note": "False of the code: long/short tuples, ragged maps and NULL for Nullable(Point) pass validation; proved under the missing shape checks."
  },
  {
   "property": "C13",
   "status": "proved",
   "theorems": [
    "Klick.Props.C13_column_injective"
   ],
   "note": ""
  },
  {
   "property": "C14",
   "status": "proved",
   "theorems": [
    "Klick.Props.C14_block_roundtrip"
   ],
   "note": "For blocks whose typed columns all have data of the row count, at every revision; block header flag excluded (C15)."
  },
  {
   "property": "C15",
   "status": "partial",
   "theorems": [
    "Klick.Props.C15_overflow_flag_fails",
    "Klick.Props.C15_header_exact",
    "Klick.Props.C15_header_roundtrip_partial"
   ],
   "note": "False of the code: the overflow flag is always read back as set (C15_overflow_flag_fails); bucket number proved; exact behaviour in C15_header_exact."
  },
  {
   "property": "C16",
   "status": "partial",
   "theorems": [
    "Klick.Props.C16_success_rectangular",
    "Klick.Props.C16_ragged_refused",
    "Klick.Props.C16_ragged_incomplete_partial",
    "Klick.Props.C16_ragged_incomplete_fails"
   ],
   "note": "Refusal and success halves proved for all blocks. \"Never a complete block on the wire\" proved when the cut is visible (rows > 0 and no zero-width type, or the last column is not the ragged one); C16_ragged_incomplete_fails shows it is false otherwise."
  },
  {
   "property": "C17",
   "status": "partial",
   "theorems": [
    "Klick.Props.C17_iter_rows_partial",
    "Klick.Props.C17_take_iter_rows",
    "Klick.Props.C17_into_iter_rows",
    "Klick.Props.C17_no_columns_none",
    "Klick.Props.C17_agreement_fails",
    "Klick.Props.C17_take_iter_rows_fails"
   ],
   "note": "Proved for all rectangular blocks with columns and, for draining, at most 2^57 rows; false on a block with rows but no columns (C17_agreement_fails: iter_rows yields empty rows, owning iterators none) and beyond 2^58 rows (C17_take_iter_rows_fails: draining reserves one column slot per row and panics)."
  },
  {
   "property": "C18",
   "status": "partial",
   "theorems": [
    "Klick.Props.C18_type_text_roundtrip_partial",
    "Klick.Props.C18_type_text_injective_partial",
    "Klick.Props.C18_enum_name_fails"
   ],
   "note": "False of the code for enum names containing a parenthesis, comma, equals sign or outer white space (C18_enum_name_fails); proved for all other types at every depth."
  },
  {
   "property": "C19",
   "status": "partial",
   "theorems": [
    "Klick.Props.C19_parse_no_panic_release_partial",
    "Klick.Props.C19_parse_no_panic_shape_partial",
    "Klick.Props.C19_parse_panics",
    "Klick.Props.C19_rendered_no_panic"
   ],
   "note": "False of the code: a stray closing parenthesis panics in debug builds, a lone quote in every build (C19_parse_panics). Proved: in release builds these lone quotes are the only cause; in any build every well-bracketed text without one is safe."
  },
  {
   "property": "C20",
   "status": "proved",
   "theorems": [
    "Klick.Props.C20_decimal_width"
   ],
   "note": ""
  },
  {
   "property": "C21",
   "status": "partial",
   "theorems": [
    "Klick.Props.C21_validate_iff_partial",
    "Klick.Props.C21_validate_server_partial",
    "Klick.Props.C21_ranges_fail"
   ],
   "note": "Exact characterisation proved (C21_validate_iff_partial); the numeric ranges differ from ClickHouse's (scale 0 and DateTime64(0) refused, DateTime64(10..18) accepted: C21_ranges_fail); agreement with ClickHouse proved where the ranges agree."
  },
  {
   "property": "C22",
   "status": "partial",
   "theorems": [
    "Klick.Props.C22_default_valid_partial",
    "Klick.Props.C22_default_zero",
    "Klick.Props.C22_enum_default_fails"
   ],
   "note": "False of the code for enums without a variant numbered 0 (C22_enum_default_fails); proved otherwise."
  },
  {
   "property": "C23",
   "status": "partial",
   "theorems": [
    "Klick.Props.C23_string_literal_partial",
    "Klick.Props.C23_adjacent_quote_fails",
    "Klick.Props.C23_string_denotes"
   ],
   "note": "False of the code only when the template itself puts a quote directly after the argument (C23 negation); proved for every byte string and every following text that does not start with a quote."
  },
  {
   "property": "C24",
   "status": "proved",
   "theorems": [
    "Klick.Props.C24_text",
    "Klick.Props.C24_substitution",
    "Klick.Props.C24_arguments_in_order",
    "Klick.Props.C24_verbatim"
   ],
   "note": "Stated on token lists, and (C24_text) on texts: for every tokenizer that follows the patterns declared in query_parser.rs and their order (relation Lexes; the matching engine and parse_str are external, QuoteReader says what is assumed), the query sent is the template piece by piece, placeholders in quoted literals, comments and heredocs untouched. A $N or $$ that the heredoc pattern could start at is excluded (piece condition)."
  },
  {
   "property": "C25",
   "status": "proved",
   "theorems": [
    "Klick.Props.C25_heredoc",
    "Klick.Props.C25_text",
    "Klick.Props.C25_two_comments",
    "Klick.Props.C25_split",
    "Klick.Props.C25_trimmed"
   ],
   "note": "On token lists, and (C25_text) on texts for every tokenizer following the declared patterns. C25_two_comments: the declared pattern of /*...*/ also matches up to the last */ of the script; scripts with two such comments are excluded from C25_text."
  },
  {
   "property": "C26",
   "status": "proved",
   "theorems": [
    "Klick.Props.C26_renders",
    "Klick.Props.C26_first_error",
    "Klick.Props.C26_collects",
    "Klick.Props.C26_distinct",
    "Klick.Props.C26_order_independent",
    "Klick.Props.C26_overwritten_error_dropped"
   ],
   "note": "For the fragments still held by the builder; an error in an overwritten clause is dropped with it (C26_overwritten_error_dropped)."
  },
  {
   "property": "C27",
   "status": "partial",
   "theorems": [
    "Klick.Props.C27_literal_denotes_partial",
    "Klick.Props.C27_decimal_fails",
    "Klick.Props.C27_int256_negative_fails",
    "Klick.Props.C27_one_tuple_fails",
    "Klick.Props.C27_decimal256_panics",
    "Klick.Props.C27_date_is_right",
    "Klick.Props.C27_date_literal",
    "Klick.Props.C27_uuid_is_right"
   ],
   "note": "False of the code for decimals with fewer digits than the scale, negative Int256, one-element tuples, and Decimal256 panics (all four proved as negations); proved for every other value at every depth. Float, IPv6, date-time and geo texts are produced by external libraries and are parameters."
  },
  {
   "property": "C28",
   "status": "proved",
   "theorems": [
    "Klick.Props.C28_all_converted",
    "Klick.Props.C28_first_failure"
   ],
   "note": ""
  },
  {
   "property": "C29",
   "status": "proved",
   "theorems": [
    "Klick.Props.C29_order",
    "Klick.Props.C29_one_at_a_time",
    "Klick.Props.C29_answered",
    "Klick.Props.C29_once",
    "Klick.Props.C29_advances"
   ],
   "note": "Every interleaving; includes that the next query does get sent (C29_advances) and that each is sent with its own text (C29_order)."
  },
  {
   "property": "C30",
   "status": "proved",
   "theorems": [
    "Klick.Props.C30_reads",
    "Klick.Props.C30_nothing_lost",
    "Klick.Props.C30_end_of_stream",
    "Klick.Props.C30_can_read"
   ],
   "note": "Safety (prefix, nothing lost, end of stream means everything read) and that a listening caller can always read on."
  },
  {
   "property": "C31",
   "status": "proved",
   "theorems": [
    "Klick.Props.C31_next_sent",
    "Klick.Props.C31_last",
    "Klick.Props.C31_own_query"
   ],
   "note": "Order, isolation, and that the next submitted query gets sent."
  },
  {
   "property": "C32",
   "status": "proved",
   "theorems": [
    "Klick.Props.C32_progress"
   ],
   "note": "The broadcast channel's own capacity (100 reports, lagging receivers lose the oldest) is tokio's and is not modelled."
  },
  {
   "property": "C33",
   "status": "partial",
   "theorems": [
    "Klick.Props.C33_after_own_query",
    "Klick.Props.C33_inside_partial",
    "Klick.Props.C33_blocks_in_order",
    "Klick.Props.C33_inside_false"
   ],
   "note": "False of the code when the server ends the insert early: a block already queued is then sent inside the next query (C33_inside_false). Proved: after its own query always; inside it as long as the server has not ended it; order, integrity and acknowledgement of blocks."
  },
  {
   "property": "C34",
   "status": "proved",
   "theorems": [
    "Klick.Props.C34_violation",
    "Klick.Props.C34_legal",
    "Klick.Props.C34_nothing_after",
    "Klick.Props.C34_nobody_waits",
    "Klick.Props.C34_only_then"
   ],
   "note": "Both directions: illegal packets end the task, and nothing else does except transport failures and dropping all handles."
  },
  {
   "property": "C35",
   "status": "partial",
   "theorems": [
    "Klick.C35_interleaving_false",
    "Klick.C35_undisturbed_partial",
    "Klick.C35_same_packets_partial"
   ],
   "note": "False of the code: a request taken while a packet has only partly arrived makes select! drop the half-done read and its bytes (C35_interleaving_false). Proved when no request is taken in the middle of a packet."
  },
  {
   "property": "C36",
   "status": "partial",
   "theorems": [
    "Klick.C36_stream_partial",
    "Klick.C36_stream_false",
    "Klick.C36_row_panic_false",
    "Klick.C36_dichotomy",
    "Klick.C36_collect",
    "Klick.C36_one",
    "Klick.C36_opt",
    "Klick.C36_execute",
    "Klick.C36_connection",
    "Klick.C36_read_blocks_typed",
    "Klick.C36_read_blocks_rectangular"
   ],
   "note": "False of the code for a block announcing 2^58 rows without columns (C36_stream_false: the row stream panics) and for row types whose conversion panics on one row: the whole block is lost, good rows included (C36_row_panic_false). Proved for responses whose blocks are rectangular and announce at most 2^57 rows, and conversions that do not panic on them; every block the reader accepts is typed and, unless it has a column that is LowCardinality itself, rectangular (C36_read_blocks_*). C36_connection ties it to a connection history."
  },
  {
   "property": "C37",
   "status": "proved",
   "theorems": [
    "Klick.C37_exact",
    "Klick.C37_columns",
    "Klick.C37_wire",
    "Klick.C37_insert"
   ],
   "note": "Columns, bytes on the wire as the server reads them, and the whole insert."
  },
  {
   "property": "C38",
   "status": "partial",
   "theorems": [
    "Klick.C38_refused",
    "Klick.C38_refusal_panics_false",
    "Klick.C38_insert_stops",
    "Klick.C38_sent_valid",
    "Klick.C38_missing_column_false",
    "Klick.C38_skipped_rows_false",
    "Klick.C38_realigned_false",
    "Klick.C38_written_partial",
    "Klick.C38_some_skipped_refused"
   ],
   "note": "Invalid values and unknown columns are never sent: the call fails and neither that block nor anything after it goes out (C38_refused, C38_insert_stops, C38_sent_valid). It fails with an error if the refused value has a text; otherwise (Decimal256, maps with unequal halves, unformattable instants) the call panics (C38_refusal_panics_false). False of the code besides: a column no row gives is silently left out, rows that fail to serialise are dropped silently, and duplicate plus missing values realign (the other _false theorems)."
  },
  {
   "property": "C39",
   "status": "partial",
   "theorems": [
    "Klick.C39_hello_partial",
    "Klick.C39_hello_false",
    "Klick.C39_refused"
   ],
   "note": "False at server revisions exactly 54058, 54372 and 54401, where the code compares with > (C39_hello_false); proved for every other revision. Numbers below 2^63 (C01)."
  },
  {
   "property": "C40",
   "status": "partial",
   "theorems": [
    "Klick.C40_data",
    "Klick.C40_data_compressed",
    "Klick.C40_progress",
    "Klick.C40_profile",
    "Klick.C40_bodyless",
    "Klick.C40_columns",
    "Klick.C40_statuses",
    "Klick.C40_parts_partial",
    "Klick.C40_parts_false",
    "Klick.C40_exception",
    "Klick.C40_exception_partial",
    "Klick.C40_nested_false",
    "Klick.C40_log_false",
    "Klick.C40_unknown_refused"
   ],
   "note": "Proved for data/totals/extremes (plain, and compressed over any split into frames), progress, profile, pong, end of stream, table columns, table status, exceptions without nested ones, unknown ids. False for exceptions with nested ones (C40_nested_false), log packets (C40_log_false) and part UUIDs in the UUID column layout (C40_parts_false)."
  },
  {
   "property": "C41",
   "status": "proved",
   "theorems": [
    "Klick.C41_query_packet",
    "Klick.C41_client_query",
    "Klick.C41_hello_packet",
    "Klick.C41_data_packet"
   ],
   "note": "Against an independent revision-aware server reader; telemetry is never sent by the crate and is assumed absent."
  },
  {
   "property": "C42",
   "status": "proved",
   "theorems": [
    "Klick.C42_frame_roundtrip",
    "Klick.C42_no_frame_on_error",
    "Klick.C42_oversize_refused"
   ],
   "note": "LZ4 and CityHash are external: assumed inverse / deterministic in the statement. Within the protocol's 2^30 frame limit; beyond it the client sends a frame any reader refuses (C42_oversize_refused)."
  },
  {
   "property": "C43",
   "status": "proved",
   "theorems": [
    "Klick.C43_accepted_is_intact",
    "Klick.C43_never_panics",
    "Klick.C43_damaged_is_refused",
    "Klick.C43_wrong_checksum_refused",
    "Klick.C43_announced_size_unchecked"
   ],
   "note": "The announced raw size is not among the checked fields: C43_announced_size_unchecked."
  },
  {
   "property": "C44",
   "status": "proved",
   "theorems": [
    "Klick.C44_seamless",
    "Klick.C44_progress"
   ],
   "note": ""
  },
  {
   "property": "C45",
   "status": "partial",
   "theorems": [
    "Klick.C45_distinct_keys",
    "Klick.C45_roundtrip_partial",
    "Klick.C45_wire_partial",
    "Klick.C45_unit_value",
    "Klick.C45_unit_value_columns",
    "Klick.C45_nested_option_false",
    "Klick.C45_vecTuple_lowCardinality_false",
    "Klick.C45_byte_vec_string_false"
   ],
   "note": "Full round trip for every Rust type code and column type that go together, nested without bound, hinted or not, and through the wire. The full English claim is false: Some(None) becomes None, a VecTuple over LowCardinality members cannot be read, and a byte vector hinted with an array of strings cannot be read back (all proved). Json<T>, references and chrono/decimal types are outside the universe of codes. What is asked of a map is that its keys differ (C45_distinct_keys)."
  },
  {
   "property": "C46",
   "status": "partial",
   "theorems": [
    "Klick.C46_scalar_exact",
    "Klick.C46_string_exact",
    "Klick.C46_compound_refused_partial",
    "Klick.C46_no_panic_from_wire",
    "Klick.C46_no_loss",
    "Klick.C46_bool",
    "Klick.C46_mismatch_accepted",
    "Klick.C46_vec_source",
    "Klick.C46_elements_refused"
   ],
   "note": "Scalars, strings and the outer level of compound types: exact value or the unexpected-type error; no panic for any bytes off the wire; nothing lost. The full claim is false for compound types without elements (C46_mismatch_accepted)."
  },
  {
   "property": "C47",
   "status": "partial",
   "theorems": [
    "Klick.C47_date_roundtrip",
    "Klick.C47_day_roundtrip_partial",
    "Klick.C47_day_wraps",
    "Klick.C47_outside_not_refused",
    "Klick.C47_calendar_partial"
   ],
   "note": "Every date from 1970 to 2149-06-06 round-trips and denotes the right calendar day. The refusal half is false of the code: dates outside the range silently wrap to another day (C47_outside_not_refused)."
  },
  {
   "property": "C48",
   "status": "partial",
   "theorems": [
    "Klick.C48_datetime",
    "Klick.C48_calendar_range",
    "Klick.C48_datetime_back",
    "Klick.C48_dt64_read",
    "Klick.C48_dt64_write_partial",
    "Klick.C48_dt64_write_outcome",
    "Klick.C48_dt64_roundtrip_partial",
    "Klick.C48_negative_refused",
    "Klick.C48_overflow_not_refused",
    "Klick.C48_dt64_read_outcome",
    "Klick.C48_negative_read_false",
    "Klick.C48_precision_above_nine",
    "Klick.C48_precision_release_false",
    "Klick.C48_precision_wraps",
    "Klick.C48_chrono_to_sql",
    "Klick.C48_chrono_roundtrip_partial",
    "Klick.C48_chrono_reads",
    "Klick.C48_chrono_error",
    "Klick.C48_datetime_zone",
    "Klick.C48_chrono_other_refused"
   ],
   "note": "DateTime, DateTime64 at precisions up to nine digits and the chrono hints, for all instants in range. The refusal half is false of the code: negative instants are refused but overflow wraps or panics (C48_overflow_not_refused), a column value beyond the calendar panics (C48_dt64_read_outcome), and a precision above nine panics in debug builds and silently wraps in release ones (C48_precision_above_nine, C48_precision_release_false)."
  },
  {
   "property": "C49",
   "status": "proved",
   "theorems": [
    "Klick.C49_decompose",
    "Klick.C49_defined",
    "Klick.C49_together",
    "Klick.C49_scale_too_large"
   ],
   "note": "For every width, scale and raw value whenever the parts are returned at all; always returned for the scales ClickHouse allows; above them the modulus panics or is wrong (C49_scale_too_large)."
  },
  {
   "property": "C50",
   "status": "proved",
   "theorems": [
    "Klick.C50_halves",
    "Klick.C50_halves_roundtrip",
    "Klick.C50_reinterpret",
    "Klick.C50_text"
   ],
   "note": "Halves, reinterpretation and text for every 256-bit value."
  },
  {
   "property": "C51",
   "status": "partial",
   "theorems": [
    "Klick.C51_to_column",
    "Klick.C51_no_hint",
    "Klick.C51_not_rounded",
    "Klick.C51_read",
    "Klick.C51_out_of_range",
    "Klick.C51_roundtrip_partial",
    "Klick.C51_readback_false"
   ],
   "note": "Writing is exact or refused for all mantissas, scales up to 38 and column types; reading is exact. Reading back is proved for scales up to 28 and 96-bit mantissas; beyond it is an error, so the full claim is false (C51_readback_false)."
  },
  {
   "property": "C52",
   "status": "proved",
   "theorems": [
    "Klick.C52_uuid",
    "Klick.C52_ipv4",
    "Klick.C52_ipv6"
   ],
   "note": "All lists of values through conversion, wire and back, with the octet layout stated explicitly."
  },
  {
   "property": "C53",
   "status": "partial",
   "theorems": [
    "Klick.C53_fetch_partial",
    "Klick.C53_index_false",
    "Klick.C53_length_and_get",
    "Klick.C53_set",
    "Klick.C53_set_empty_name",
    "Klick.C53_serialize"
   ],
   "note": "Every history of fetches by name and index. False of the code: try_get at index = len panics instead of reporting out of bounds (C53_index_false); setting an empty name after a fetch panics (C53_set_empty_name)."
  },
  {
   "property": "C54",
   "status": "partial",
   "theorems": [
    "Klick.C54_roundtrip",
    "Klick.C54_unknown_ignored_partial",
    "Klick.C54_by_position",
    "Klick.C54_field_source",
    "Klick.C54_field_source_flatten",
    "Klick.C54_duplicate_refused",
    "Klick.C54_missing_refused",
    "Klick.C54_labels_suffice",
    "Klick.C54_plain_field",
    "Klick.C54_via",
    "Klick.C54_unknown_ignored_false",
    "Klick.C54_unknown_misassigned",
    "Klick.C54_write_only_false",
    "Klick.C54_nested_default_false",
    "Klick.C54_nested_endless",
    "Klick.C54_flatten_skip_false",
    "Klick.C54_nested_hints_false",
    "Klick.C54_declared",
    "Klick.C54_declared_via",
    "Klick.C54_serialize_with_false",
    "Klick.Props.C54_nested_source",
    "Klick.Props.C54_flatten_source",
    "Klick.Props.C54_skipped_source"
   ],
   "note": "Proved in full: the round trip for every struct, value and column order (C54_roundtrip, closed under nesting, flattening and from/into), reading by position, where each field's value comes from, duplicates and missing columns refused. Not as stated: unknown columns are ignored only behind the positional columns or in structs with a flattened field (C54_unknown_ignored_partial); otherwise they are refused or even become a field's value (C54_unknown_ignored_false, C54_unknown_misassigned). deny_unknown_fields does not compile in the code (the error variant it names does not exist) and is not modelled. Further negations: write-only fields, defaults of nested fields, skipped flattened fields, hints of nested rows, serialize_with on nested or flattened fields (what is declared is then not what is written; C54_serialize_with_false). What nested, flattened and skipped fields hold after reading: C54_nested_source, C54_flatten_source, C54_skipped_source."
  },
  {
   "property": "C55",
   "status": "partial",
   "theorems": [
    "Klick.C55_rule_as_promised",
    "Klick.C55_words_exist",
    "Klick.C55_distinct",
    "Klick.C55_distinct_letters_partial",
    "Klick.C55_pascal_collision",
    "Klick.C55_camel_panics",
    "Klick.C55_rule_names",
    "Klick.C55_explicit_name"
   ],
   "note": "Every rule gives the documented form for every name made of words (C55_rule_as_promised; every name is made of words: C55_words_exist); distinct names stay distinct under every rule that keeps separators (C55_distinct). Partial: PascalCase and camelCase keep apart only names whose words begin with letters (C55_distinct_letters_partial); a_1 and a1 collide (C55_pascal_collision). camelCase panics at compile time on names of underscores only or starting with a non-ASCII character (C55_camel_panics)."
  },
  {
   "property": "C56",
   "status": "proved",
   "theorems": [
    "Klick.C56_row_errors",
    "Klick.C56_annotate"
   ],
   "note": "For every nested error."
  },
  {
   "property": "C57",
   "status": "proved",
   "theorems": [
    "Klick.C57_totals",
    "Klick.C57_order",
    "Klick.C57_grouping"
   ],
   "note": "Past 64 bits: panic with overflow checks, wrap-around without; order still irrelevant."
  },
  {
   "property": "C58",
   "status": "partial",
   "theorems": [
    "Klick.C58_holders_bounded",
    "Klick.C58_exclusion_partial",
    "Klick.C58_exclusion_false",
    "Klick.C58_lost_false",
    "Klick.C58_attempt",
    "Klick.C58_calls",
    "Klick.C58_lock_tries_again",
    "Klick.C58_released",
    "Klick.C58_reacquired",
    "Klick.C58_free_at_rest",
    "Klick.C58_stuck_until_reset",
    "Klick.C58_names_apart",
    "Klick.C58_statements",
    "Klick.C58_given_back",
    "Klick.C58_cut_off",
    "Klick.C58_cut_fails",
    "Klick.C58_tables"
   ],
   "note": "Any number of clients and tasks, every schedule, with deaths, cancellations and broken connections (a break may be reported as an error or as success, whether or not the server ran the statement): holders whose connections live are at most one more than the forced resets (C58_holders_bounded), so exclusion holds among them while nobody calls reset() (C58_exclusion_partial). False with reset(), which the quantifier includes (C58_exclusion_false), and for a caller whose connection broke during the attempt (C58_lost_false); such a handle does no harm, for nothing of that client reaches the server any more (C58_cut_off, C58_cut_fails). A released lock can be acquired again (C58_reacquired, C58_released, C58_attempt, C58_lock_tries_again), the lock is free when all is at rest (C58_free_at_rest); a holder that dies leaves it stuck until a reset (C58_stuck_until_reset). Letting a handle go spawns the task that releases it (C58_given_back); locks of different names never touch (C58_names_apart). The tables that exist are in every schedule what the statements run so far leave (C58_tables)."
  },
  {
   "property": "C59",
   "status": "partial",
   "theorems": [
    "Klick.C59_in_order",
    "Klick.C59_complete",
    "Klick.C59_first_failure",
    "Klick.C59_under_lock_partial",
    "Klick.C59_releases_on_failure",
    "Klick.C59_lock_free_afterwards",
    "Klick.C59_lock_stolen_false",
    "Klick.C59_patient",
    "Klick.C59_runs_to_end",
    "Klick.C59_replace_first",
    "Klick.C59_replace_none",
    "Klick.C59_cluster_lock",
    "Klick.C59_plain_lock",
    "Klick.C59_no_lock_no_work",
    "Klick.C59_unreleased_false",
    "Klick.C59_phantom_false"
   ],
   "note": "Every statement in order, once, completely on success, nothing after the first failure, the count, and the release, for every batch, schedule and failure, broken connections reported as success included (C59_in_order, C59_complete, C59_first_failure, C59_releases_on_failure, C59_lock_free_afterwards, C59_runs_to_end); each statement runs under the lock, exclusively unless the lock was forcibly reset (C59_under_lock_partial). False in general: a migration that waited 60 s resets the lock of one still running (C59_lock_stolen_false); a connection that breaks during the release leaves the lock taken although Ok is returned (C59_unreleased_false), and one that breaks during a statement can let it be reported as successful without having been run (C59_phantom_false; the call then fails). The tokenizer is a parameter. Without the lock no migration statement is sent (C59_no_lock_no_work)."
  },
  {
   "property": "C60",
   "status": "partial",
   "theorems": [
    "Klick.C60_roundtrip",
    "Klick.C60_name_refused",
    "Klick.C60_name_error",
    "Klick.C60_none_read_partial",
    "Klick.C60_none_written_partial",
    "Klick.C60_blocks",
    "Klick.C60_value_invalid",
    "Klick.C60_refused_cleanly_false"
   ],
   "note": "Proved: every bit pattern survives with the feature; without it no type name, value or block with a BFloat16 is accepted or produced at any depth. False of the code: validation accepts the type, and writing, reading or its default panics instead of an error (C60_refused_cleanly_false)."
  },
  {
   "property": "C61",
   "status": "partial",
   "theorems": [
    "Klick.C61_points",
    "Klick.C61_rings",
    "Klick.C61_polygons",
    "Klick.C61_multipolygons",
    "Klick.C61_layout",
    "Klick.C61_geo_line",
    "Klick.C61_geo_polygon_partial",
    "Klick.C61_geo_multi_partial",
    "Klick.C61_geo_back_partial",
    "Klick.C61_geo_ring_prefix",
    "Klick.C61_geo_ring",
    "Klick.C61_geo_back_false",
    "Klick.C61_geo_nan_false"
   ],
   "note": "Full round trip and layout for the crate's own types. geo_types conversions: proved for closed rings; false for open rings, empty polygons (C61_geo_back_false) and NaN start points (C61_geo_nan_false). geo-types' Polygon::new is external, modelled from its documentation."
  },
  {
   "property": "C62",
   "status": "proved",
   "theorems": [
    "Klick.C62_packet_truncated",
    "Klick.C62_packet_independent",
    "Klick.C62_block_truncated",
    "Klick.C62_written_block_truncated",
    "Klick.C62_column_truncated",
    "Klick.C62_column_independent"
   ],
   "note": "Every reader; compressed payloads included."
  },
  {
   "property": "C63",
   "status": "partial",
   "theorems": [
    "Klick.C63_reported_false",
    "Klick.C63_reported_partial"
   ],
   "note": "False of the code: an exception after the header block is never looked at (C63_reported_false). Proved: success means the header arrived and everything was sent; an exception that is the first answer is returned."
  },
  {
   "property": "C64",
   "status": "partial",
   "theorems": [
    "Klick.Props.C64_loss_reported_false",
    "Klick.Props.C64_unsent_reported_partial",
    "Klick.Props.C64_open_means_complete_partial"
   ],
   "note": "False of the code: a caller in the middle of its stream sees a normal end (C64_loss_reported_false). Proved for queries and blocks not yet sent. A caller can tell: if the client is not closed at any time after a stream ended, the answer was complete (C64_open_means_complete_partial)."
  },
  {
   "property": "C65",
   "status": "partial",
   "theorems": [
    "Klick.Props.C65_stuck_task",
    "Klick.Props.C65_not_held_up_false",
    "Klick.Props.C65_leaving_frees_partial"
   ],
   "note": "False of the code (C65_not_held_up_false, and C65_stuck_task for every continuation). Proved when the caller leaves or keeps room in its channel."
  },
  {
   "property": "C66",
   "status": "partial",
   "theorems": [
    "Klick.C66_field_accepted",
    "Klick.C66_result_partial",
    "Klick.C66_accepted_partial",
    "Klick.C66_only_structs",
    "Klick.C66_order",
    "Klick.C66_ignored_false"
   ],
   "note": "False as stated: a non-literal value such as rename = NAME is ignored without an error (C66_ignored_false). With literal values: acceptance and result are exactly those of the attribute table (C66_accepted_partial, C66_result_partial), tuples, units, enums and unions are refused."
  },
  {
   "property": "C67",
   "status": "partial",
   "theorems": [
    "Klick.C67_hash_tells",
    "Klick.C67_symmetric",
    "Klick.C67_transitive",
    "Klick.C67_reflexive_partial",
    "Klick.C67_hash_agrees_partial",
    "Klick.C67_identity_partial",
    "Klick.C67_reflexive_false",
    "Klick.C67_hash_false"
   ],
   "note": "Symmetry and transitivity for all values. False of the code for geometric values: a point with a NaN coordinate differs from itself (C67_reflexive_false) and points differing in the sign of a zero are equal with different hashes (C67_hash_false). Proved for every other value, scalar NaNs and zeros included. The words fed to a hasher tell the value, with no condition (C67_hash_tells)."
  },
  {
   "property": "C68",
   "status": "proved",
   "theorems": [
    "Klick.C68_exact",
    "Klick.C68_width",
    "Klick.C68_refused",
    "Klick.C68_checksum"
   ],
   "note": "the RFC 3339 parser is external: a parameter of the model, the theorems hold for every one"
  },
  {
   "property": "C69",
   "status": "proved",
   "theorems": [
    "Klick.C69_stream",
    "Klick.C69_whole",
    "Klick.C69_hello_first",
    "Klick.C69_queries",
    "Klick.C69_revision"
   ],
   "note": "C69_stream: every history of a connection, any revision, with and without compression; C69_hello_first, C69_queries, C69_revision. Assumes texts below 2^63 bytes, blocks the protocol can carry (C14/C42 limits), LZ4 inverse. C69_whole: a block counts as sent only if every byte of it could be written."
  },
  {
   "property": "C70",
   "status": "partial",
   "theorems": [
    "Klick.C70_closed",
    "Klick.C70_set_first",
    "Klick.C70_accepted_partial",
    "Klick.C70_refused",
    "Klick.C70_one_settled",
    "Klick.C70_valid",
    "Klick.C70_prequel",
    "Klick.C70_accepted_false",
    "Klick.C70_reason_false",
    "Klick.C70_is_valid"
   ],
   "note": "False in two points: C70_accepted_false (connection lost after SET was sent, connect returns Ok), C70_reason_false (server exception replaced by a protocol error). Proved: C70_accepted_partial, C70_set_first, C70_refused, C70_closed, C70_valid, C70_prequel."
  },
  {
   "property": "C71",
   "status": "proved",
   "theorems": [
    "Klick.C71_readers",
    "Klick.C71_roundtrip",
    "Klick.C71_row_type",
    "Klick.C71_derived"
   ],
   "note": "C71_roundtrip is the whole way from insert_native to query_collect through the wire format at both ends; C71_row_type and C71_derived discharge its hypothesis on the row type for hand-written and derived rows. The server is not modelled beyond returning the rows it received (in order, any block division and column order); values outside the normal form of their column (FixedString with NULs, bytes in an Int8 column) are excluded here and treated in C06. C71_readers is the same for readers of another type or other code than the writer, up to a relation."
  },
  {
   "property": "C72",
   "status": "partial",
   "theorems": [
    "Klick.C72_unsigned",
    "Klick.C72_addresses",
    "Klick.C72_dates",
    "Klick.C72_signed_partial",
    "Klick.C72_signed_false",
    "Klick.C72_fixed",
    "Klick.C72_equal"
   ],
   "note": "False of i256 and FixedPoint256 (the array of unsigned bytes is compared): C72_signed_false; C72_signed_partial gives the order exactly (right within a sign, negatives last). Proved for all others, and agreement with equality for all."
  },
  {
   "property": "C73",
   "status": "partial",
   "theorems": [
    "Klick.C73_date",
    "Klick.C73_datetime_partial",
    "Klick.C73_datetime64_partial",
    "Klick.C73_dynamic_partial",
    "Klick.C73_datetime_refuses",
    "Klick.C73_drift",
    "Klick.C73_zone_false",
    "Klick.C73_dynamic_false",
    "Klick.C73_seconds_false"
   ],
   "note": "False in three points: the zone is always replaced by UTC (C73_zone_false), DynDateTime64 always comes back at precision 6 (C73_dynamic_false), and zones not whole minutes from UTC shift the instant (C73_seconds_false), by at most half a minute (C73_drift). Proved: every Date; the instant of every DateTime, and of DateTime64 up to 9 digits and before the last day of 9999; refusals. chrono is a parameter with a stated law."
  },
  {
   "property": "C74",
   "status": "partial",
   "theorems": [
    "Klick.C74_sent",
    "Klick.C74_server_partial",
    "Klick.C74_server_false",
    "Klick.C74_native",
    "Klick.C74_single"
   ],
   "note": "False when the caller of insert_native_raw passes a block without columns (C74_server_false). Proved otherwise, and in full for insert_native and insert_native_block."
  },
  {
   "property": "C75",
   "status": "partial",
   "theorems": [
    "Klick.C75_insert_partial",
    "Klick.C75_insert_false",
    "Klick.C75_one_column",
    "Klick.C75_read"
   ],
   "note": "False: inserting works only if the column is called _ (C75_insert_false for every other table; C75_insert_partial). Reading is proved for every column name."
  },
  {
   "property": "C76",
   "status": "proved",
   "theorems": [
    "Klick.C76_json",
    "Klick.C76_unwritable",
    "Klick.C76_refuses"
   ],
   "note": "serde and serde_json are a parameter; the hypothesis JsonKeeps is their own round trip."
  },
  {
   "property": "C77",
   "status": "partial",
   "theorems": [
    "Klick.C77_inferred_partial",
    "Klick.C77_empty_false",
    "Klick.C77_null_false",
    "Klick.C77_enum_false",
    "Klick.C77_typed"
   ],
   "note": "False of the code: the type of a list is inferred from its first element, and an empty list or None infers String; enum values panic. Proved for all Inferable values (a first element that shows its type), and for every value when a suitable type is given."
  },
  {
   "property": "C78",
   "status": "partial",
   "theorems": [
    "Klick.Props.C78_exact",
    "Klick.Props.C78_users",
    "Klick.Props.C78_sufficient_partial",
    "Klick.Props.C78_reading_false",
    "Klick.Props.C78_nested_false"
   ],
   "note": "The predicates generated are characterised exactly (C78_exact, C78_users) and suffice for fields that are serialized as they are; the full claim is false: fields read but not written get no bound (C78_reading_false), and nested fields ask for more than is called (C78_nested_false)."
  },
  {
   "property": "C79",
   "status": "partial",
   "theorems": [
    "Klick.Props.C79_same",
    "Klick.Props.C79_struct",
    "Klick.Props.C79_no_self_partial",
    "Klick.Props.C79_unchanged",
    "Klick.Props.C79_no_self_false"
   ],
   "note": "For every congruence on types and expressions in which Self is the struct, the fields, the bounds and the where clause mean what was written (C79_same, C79_struct). \"No Self is left\" holds where the macro looks (C79_no_self_partial) and is false for constants given as arguments, macros and constraints (C79_no_self_false)."
  },
  {
   "property": "C80",
   "status": "partial",
   "theorems": [
    "Klick.Props.C80_position",
    "Klick.Props.C80_reads_partial",
    "Klick.Props.C80_whole_partial",
    "Klick.Props.C80_in_turn",
    "Klick.Props.C80_false"
   ],
   "note": "False as stated (C80_false). Proved for every history in which no request is taken in the middle of a packet, and outright for callers that take turns (C80_in_turn), where that cannot happen."
  },
  {
   "property": "C81",
   "status": "proved",
   "theorems": [
    "Klick.Props.C81_accepted",
    "Klick.Props.C81_row_type",
    "Klick.Props.C81_limits"
   ],
   "note": "Both directions of what is accepted, the row type, and the limits (paths like std::vec::Vec are refused, a panic of the macro; unnoticed when the struct is converted both ways). Which characters an identifier may have is a parameter (unicode_ident)."
  },
  {
   "property": "C82",
   "status": "proved",
   "theorems": [
    "Klick.Props.C82_answered",
    "Klick.Props.C82_read",
    "Klick.Props.C82_blocks",
    "Klick.Props.C82_acked",
    "Klick.Props.C82_returns",
    "Klick.Props.C82_readers_needed"
   ],
   "note": "Under the fairness assumptions written in Spec/Fair.lean, each about the executor (tokio::select! does not starve a ready branch), the callers or the server. C82_fair_run: they are met by every finite run that leaves nothing to do; C82_readers_needed: without readers the claim fails (see C65)."
  },
  {
   "property": "C83",
   "status": "partial",
   "theorems": [
    "Klick.Props.C83_obtained_false",
    "Klick.Props.C83_lock_obtained_partial",
    "Klick.Props.C83_uncontended",
    "Klick.Props.C83_keeps_trying"
   ],
   "note": "The full claim is false: lock polls, so it can lose every race (C83_obtained_false, a schedule meeting all assumptions of Spec.Served in which the lock is free again and again). Proved: it obtains the lock unless others obtain it again and again forever; obtained outright when from some time on nobody else takes it."
  },
  {
   "property": "C84",
   "status": "partial",
   "theorems": [
    "Klick.Props.C84_filled_in_partial",
    "Klick.Props.C84_history_table",
    "Klick.Props.C84_client",
    "Klick.Props.C84_client_table",
    "Klick.Props.C84_filled_in_false"
   ],
   "note": "The full claim is false when a name or a text overlaps with a placeholder (C84_filled_in_false). Proved for every script whose texts cannot be mistaken for a placeholder (Spec.Unmistakable), and for the history table with any names without %. That these are the texts the server runs is C59."
  },
  {
   "property": "C85",
   "status": "partial",
   "theorems": [
    "Klick.Props.C85_open_while_held",
    "Klick.Props.C85_calls_hold",
    "Klick.Props.C85_closed_final",
    "Klick.Props.C85_received_stays_partial",
    "Klick.Props.C85_stream_ends_false"
   ],
   "note": "False as to the streams: dropping the last handle ends a stream in the middle without an error, nobody being at fault (C85_stream_ends_false). Proved: all that had been received can still be read (C85_received_stays_partial), the connection is open while a handle exists unless the transport or the server is at fault, calls in progress keep their handle, closed is final."
  },
  {
   "property": "C86",
   "status": "partial",
   "theorems": [
    "Klick.C86_own_first",
    "Klick.C86_granules_partial",
    "Klick.C86_both_false",
    "Klick.C86_shared_null_false"
   ],
   "note": "False of the code when a granule refers to both dictionaries (C86_both_false: own keys are counted first, ClickHouse counts the shared dictionary first) and for NULL in a shared dictionary (C86_shared_null_false). Proved for all other sequences of granules (C86_granules_partial); C86_own_first says what is read in every case."
  },
  {
   "property": "C87",
   "status": "partial",
   "theorems": [
    "Klick.Props.C87_reports",
    "Klick.Props.C87_query",
    "Klick.Props.C87_ended",
    "Klick.Props.C87_end_told_false"
   ],
   "note": "Proved: what a subscriber was told accounts for the reports since its subscription, in order, gaps announced with their length; exactly what it can be told next; completeness for one query; the end is told only without handles. False: that it is told of the end of the connection (C87_end_told_false): every handle keeps a sender."
  },
  {
   "property": "C88",
   "status": "partial",
   "theorems": [
    "Klick.Props.C88_order",
    "Klick.Props.C88_negation",
    "Klick.Props.C88_whole",
    "Klick.Props.C88_close_partial",
    "Klick.Props.C88_nearest_false",
    "Klick.Props.C88_scale_too_large"
   ],
   "note": "For the three widths at every scale ClickHouse allows: never fails, keeps order and sign, exact on whole numbers up to 2^53, within one part in 2^50 of the number. That it is the nearest float is false (C88_nearest_false: 1.14); above those scales it panics with overflow checks (C88_scale_too_large)."
  },
  {
   "property": "C89",
   "status": "partial",
   "theorems": [
    "Klick.Props.C89_values_partial",
    "Klick.Props.C89_memory_partial",
    "Klick.Props.C89_block_values_partial",
    "Klick.Props.C89_block_memory_partial",
    "Klick.Props.C89_fixed_zero_false",
    "Klick.Props.C89_empty_tuple_false",
    "Klick.Props.C89_low_cardinality_false"
   ],
   "note": "False of the code: sixteen bytes announce 2^30 rows of Tuple(), which take no bytes (C89_empty_tuple_false, C89_fixed_zero_false), and the rows of a LowCardinality column each hold a copy of the string they name (C89_low_cardinality_false). Proved for all other types on any bytes, columns and blocks: at least a byte for each row and at most 2 + d values for each byte (d: depth of nested tuples), LowCardinality included as to the number of values, strings counted in otherwise. Reservations made before reading are not counted."
  },
  {
   "property": "C90",
   "status": "partial",
   "theorems": [
    "Klick.Props.C90_field_partial",
    "Klick.Props.C90_struct_partial",
    "Klick.Props.C90_silent",
    "Klick.Props.C90_silent_false"
   ],
   "note": "False as stated: a value that is not a literal, such as rename = NAME, is passed over in silence (C90_silent_false). For everything else the errors are exactly the report, on fields (C90_field_partial) and on whole structs (C90_struct_partial, C90_silent). The wording of the messages is not modelled; a rename rule that panics on a field name ends the macro with the panic instead of the report."
  },
  {
   "property": "C91",
   "status": "proved",
   "theorems": [
    "Klick.Props.C91_error_says_why",
    "Klick.Props.C91_from_wire",
    "Klick.Props.C91_case"
   ],
   "note": "For every Rust type code, column type and value of the column: success iff readable on every level; error e iff e is that of the first part that is not as wanted (C91_error_says_why), also for anything decoded from a server (C91_from_wire). The texts of the errors are in Spec/Refuse.lean. Json<T>, references and the chrono/decimal types are outside the universe of codes."
  },
  {
   "property": "C92",
   "status": "partial",
   "theorems": [
    "Klick.Props.C92_server_names_partial",
    "Klick.Props.C92_column",
    "Klick.Props.C92_unambiguous",
    "Klick.Props.C92_server_names_false"
   ],
   "note": "False of the code for tuples with named members (refused) and for enum names with commas or escaped quotes (C92_server_names_false). Proved for every other name in the grammar of Spec/ServerText.lean, nested without bound with any white space (C92_server_names_partial), and for the header of a column (C92_column); no name is written for two types (C92_unambiguous)."
  },
  {
   "property": "C93",
   "status": "partial",
   "theorems": [
    "Klick.Props.C93_depth_partial",
    "Klick.Props.C93_unbounded_false",
    "Klick.Props.C93_validated"
   ],
   "note": "False of the code: for every n there is an accepted name of 7n+6 characters nested n deep (C93_unbounded_false), and it is valid (C93_validated). Proved: the depth is at most a fifth of the length of the name (C93_depth_partial). The machine stack is not modelled; depth is the number of nested calls."
  },
  {
   "property": "C94",
   "status": "partial",
   "theorems": [
    "Klick.Props.C94_ends_partial",
    "Klick.Props.C94_uncontended",
    "Klick.Props.C94_succeeds",
    "Klick.Props.C94_ends_false"
   ],
   "note": "False in full: a batch can be overtaken forever by newer batches (C94_ends_false, in which all others end). Proved: it ends unless others obtain the lock again and again, forever (C94_ends_partial); it ends if from some time on nobody else obtains the lock, also after the death of a holder (C94_uncontended); and then, if the server accepts every statement, it reports all scripts done (C94_succeeds)."
  },
  {
   "property": "C95",
   "status": "partial",
   "theorems": [
    "Klick.Props.C95_accepted_partial",
    "Klick.Props.C95_vetted",
    "Klick.Props.C95_accepted_false"
   ],
   "note": "False in full: a comma after the last argument, a plus sign, leading zeros and empty lists are accepted and the white space at the ends of enum names is dropped (C95_accepted_false). Proved: exactly the texts of a grammar written independently of the parser are accepted, as the types it says (C95_accepted_partial, for alphabets where white space is no letter), and every accepted type has existing zones and numbers that fit (C95_vetted, no assumption)."
  },
  {
   "property": "C96",
   "status": "partial",
   "theorems": [
    "Klick.Props.C96_says",
    "Klick.Props.C96_kind",
    "Klick.Props.C96_carries",
    "Klick.Props.C96_code",
    "Klick.Props.C96_parts_partial",
    "Klick.Props.C96_parts_false",
    "Klick.Props.C96_clone",
    "Klick.Props.C96_column",
    "Klick.Props.C96_attempt",
    "Klick.Props.C96_taken_false"
   ],
   "note": "Every error with every payload. The text tells the kind (C96_kind) and an exception's code (C96_code); its parts when the name has no ': ' and the message no line break (C96_parts_partial, false otherwise: C96_parts_false); a clone reads the same (C96_clone); the column goes into the text (C96_column). 'already exists' is found exactly when a carried text says so (C96_says), and then try_lock reports the lock as taken, lock and migrations wait, otherwise they fail with the error (C96_attempt). That the lock is then taken is false: the server need only quote a lock's name (C96_taken_false). Every payload is in the text (C96_carries)."
  },
  {
   "property": "C97",
   "status": "partial",
   "theorems": [
    "Klick.Props.C97_read_partial",
    "Klick.Props.C97_alive_partial",
    "Klick.Props.C97_in_turn",
    "Klick.Props.C97_false"
   ],
   "note": "False as stated (C97_false: a request taken mid-packet loses the bytes read so far, the caller never reads its block and the connection dies). Proved: with no request taken in the middle of a packet every caller that stays reads exactly the answer written to its query and reaches the end of its stream, and the connection never breaks down (C97_read_partial, C97_alive_partial); in full when callers take turns (C97_in_turn). Assumptions on server, transport, executor and callers are the structures Serves, Runs, Attend, InTurn of Spec/LinkFair.lean; an execution meeting all of them is shown."
  },
  {
   "property": "C98",
   "status": "partial",
   "theorems": [
    "Klick.Props.C98_conditions_partial",
    "Klick.Props.C98_calls_partial",
    "Klick.Props.C98_comment_false",
    "Klick.Props.C98_parenthesis_false"
   ],
   "note": "For all builder calls and all fragments that are complete by themselves (read to their end outside quotes, comments and parentheses). Without that the claim is false of the code: C98_comment_false (a condition ending in a line comment swallows the parenthesis the builder adds), C98_parenthesis_false (unbalanced parentheses split a condition, and a later condition is then required of one half only)."
  },
  {
   "property": "C99",
   "status": "partial",
   "theorems": [
    "Klick.Props.C99_complete",
    "Klick.Props.C99_string",
    "Klick.Props.C99_structure_partial",
    "Klick.Props.C99_select_partial",
    "Klick.Props.C99_minus_false"
   ],
   "note": "For all values, all templates whose arguments stand apart from words and literals and not directly behind a minus sign or slash, and every tokenizer following the declared patterns; also for templates given to a SELECT builder (C99_select_partial). False of the code behind a minus sign (C99_minus_false: a negative number completes it to a comment, and the conditions behind it are not read). The reader does not read heredocs, # comments, semicolons: templates with them are not covered. Texts made by libraries (floats, IPv6, geometric values) are assumed plain (PlainExt)."
  },
  {
   "property": "C100",
   "status": "partial",
   "theorems": [
    "Klick.Props.C100_exact_partial",
    "Klick.Props.C100_nested_false",
    "Klick.Props.C100_self_false",
    "Klick.Props.C100_flatten_false",
    "Klick.Props.C100_variables_false",
    "Klick.Props.C100_functions_false",
    "Klick.Props.C100_deny_false",
    "Klick.Props.C100_ordinary_partial"
   ],
   "note": "Exact: the names are right if and only if the struct fulfils the listed conditions (C100_exact_partial, C100_ordinary_partial). The macro checks none of these conditions, so the full claim is false: six refutations. That the traits needed are implemented is C78; in macros and constant arguments every identifier counts as a name."
  },
  {
   "property": "C101",
   "status": "partial",
   "theorems": [
    "Klick.Props.C101_results",
    "Klick.Props.C101_blocks",
    "Klick.Props.C101_results_reached",
    "Klick.Props.C101_blocks_reached",
    "Klick.Props.C101_queries_false"
   ],
   "note": "Results (at most 33 waiting) and blocks of inserts (at most 1024 waiting) in every reachable state, and both bounds are reached. Queries waiting to be sent are not bounded (C101_queries_false, for every n)."
  },
  {
   "property": "C102",
   "status": "proved",
   "theorems": [
    "Klick.Props.C102_execute",
    "Klick.Props.C102_execute_error",
    "Klick.Props.C102_collect",
    "Klick.Props.C102_collect_error",
    "Klick.Props.C102_opt",
    "Klick.Props.C102_one",
    "Klick.Props.C102_now",
    "Klick.Props.C102_opt_error",
    "Klick.Props.C102_no_panic"
   ],
   "note": "The outcome of each call as a function of the history; the illusion of C64 (a broken connection read as the end of an answer) is excluded by the client being open at any later time. Rows are those of well-formed blocks of at most 2^57 announced rows (see C36); success of inserts is not part of it (C63)."
  },
  {
   "property": "C103",
   "status": "partial",
   "theorems": [
    "Klick.Props.C103_accepted",
    "Klick.Props.C103_kept_partial",
    "Klick.Props.C103_column_partial",
    "Klick.Props.C103_struct_partial",
    "Klick.Props.C103_insert_partial",
    "Klick.Props.C103_zone_false",
    "Klick.Props.C103_fixed_false",
    "Klick.Props.C103_null_point_false",
    "Klick.Props.C103_chrono",
    "Klick.Props.C103_decimal",
    "Klick.Props.C103_optional_decimal_false"
   ],
   "note": "Accepted exactly when the times are in the column's zone and None stands in Nullable only (C103_accepted, an equivalence); kept and read back when moreover texts have room and no None is for a geometric type (C103_kept_partial, C103_column_partial, C103_struct_partial, C103_insert_partial); chrono times and Decimals (C103_chrono, C103_decimal). The claim without these conditions is false of the code: C103_zone_false, C103_fixed_false, C103_null_point_false, C103_optional_decimal_false. FieldsFit is a struct without attributes; attributes are C24 and C54."
  },
  {
   "property": "C104",
   "status": "proved",
   "theorems": [
    "Klick.Props.C104_stored",
    "Klick.Props.C104_column",
    "Klick.Props.C104_chrono",
    "Klick.Props.C104_decimal",
    "Klick.Props.C104_json",
    "Klick.Props.C104_struct",
    "Klick.Props.C104_insert"
   ],
   "note": "For every family of conversions: C104_stored, C104_column, and for rows C104_struct, C104_insert; C104_chrono, C104_decimal and C104_json show that the library's own such types meet the condition. Keys of maps are ordinary types. The condition on a user value includes that it is not written as NULL (Some of a NULL is lost, see C45)."
  },
  {
   "property": "C105",
   "status": "proved",
   "theorems": [
    "Klick.Props.C105_write",
    "Klick.Props.C105_read",
    "Klick.Props.C105_from_wire",
    "Klick.Props.C105_row_write",
    "Klick.Props.C105_row_read",
    "Klick.Props.C105_row_case",
    "Klick.Props.C105_case"
   ],
   "note": "For every family of user conversions and every container: C105_write, C105_read (values a column can hold), C105_from_wire (whatever was received); rows of structs: C105_row_write, C105_row_read (columns of any names, in any order and number). The standard parts of a container never fail to be written. Map keys are ordinary types."
  },
  {
   "property": "C106",
   "status": "proved",
   "theorems": [
    "Klick.Props.C106_select",
    "Klick.Props.C106_struct",
    "Klick.Props.C106_insert",
    "Klick.Props.C106_not_optional"
   ],
   "note": "C106_select is the whole way from insert_native to query_collect for any writer and any reader, C106_struct discharges its condition for structs, C106_insert combines them. The server is not modelled beyond answering with rows it received. Columns the reader does not declare are the subject of C54 (refused, or read by position)."
  },
  {
   "property": "C107",
   "status": "partial",
   "theorems": [
    "Klick.Props.C107_readers",
    "Klick.Props.C107_one_partial",
    "Klick.Props.C107_frame_partial",
    "Klick.Props.C107_total_partial",
    "Klick.Props.C107_fixed_false",
    "Klick.Props.C107_numbers_false",
    "Klick.Props.C107_frame_false"
   ],
   "note": "False of the code: room for announced rows is reserved before any has come (C107_numbers_false), for a FixedString as wide as the type text says (C107_fixed_false, with any allowance below 2^63), and 2^32 for the contents of a frame of 25 bytes (C107_frame_false). Proved for every input: what a single reservation can be (C107_one_partial, C107_frame_partial) and, for types without Tuple() and FixedString(0), that all together stay within the weight of the type for each byte taken or received and one largest reservation more (C107_total_partial). C107_readers: the readers with notes are the readers of the other claims. Reservations are counted in elements; blocks are covered column by column."
  },
  {
   "property": "C108",
   "status": "partial",
   "theorems": [
    "Klick.Props.C108_exact_partial",
    "Klick.Props.C108_usual_partial",
    "Klick.Props.C108_row_false",
    "Klick.Props.C108_types_false",
    "Klick.Props.C108_const_false",
    "Klick.Props.C108_variant_false",
    "Klick.Props.C108_converted"
   ],
   "note": "Exact: the bare names of the generated code are understood as meant exactly in modules with the listed properties where no constant, and no constant parameter, has the name of one of the variables it uses (C108_exact_partial, no hypotheses); usual modules that import Row where there are flattened fields are such (C108_usual_partial). False in full: four refutations, three of them for every struct. Methods that a type has itself, and builtin attributes, are not counted as names of the module."
  },
  {
   "property": "C109",
   "status": "partial",
   "theorems": [
    "Klick.C109_exact_partial",
    "Klick.C109_arguments",
    "Klick.C109_column_partial",
    "Klick.C109_datetime_partial",
    "Klick.C109_datetime_drift",
    "Klick.C109_datetime64_partial",
    "Klick.C109_decimal256_false",
    "Klick.C109_time_false",
    "Klick.C109_precision_false",
    "Klick.C109_map_false",
    "Klick.C109_seconds_false",
    "Klick.C109_refusal",
    "Klick.C109_refused_batch"
   ],
   "note": "Exact for all values whose precisions are below 20 (type validation ends at 18): which have a text, and that the others panic (C109_exact_partial), also as arguments of a template (C109_arguments), by column type (C109_column_partial) and as refused values of inserts (C109_refusal, C109_refused_batch). Times: the same instant for zones whole minutes from UTC, up to the year 9999; half a minute off at most in others. False in full: five refutations. An error from the formatter counts as a panic, as in to_string and format!."
  },
  {
   "property": "C110",
   "status": "partial",
   "theorems": [
    "Klick.C110_back_partial",
    "Klick.C110_exact_partial",
    "Klick.C110_instant",
    "Klick.C110_timeless",
    "Klick.C110_zone_false",
    "Klick.C110_precision_false",
    "Klick.C110_panic_false",
    "Klick.C110_read"
   ],
   "note": "Exact for every value whose times can be written (up to nine digits, up to the year 9999, zones whole minutes from UTC): it comes back with its times in UTC and at six digits (C110_back_partial), so the same if and only if they were (C110_exact_partial, whose second half holds of anything read at all); the instant is kept up to six digits and cut at microseconds beyond (C110_instant); values without times always come back the same (C110_timeless); reading anything at all gives a value or an error (C110_read). False in full: zone, precision, and a panic before 1970. The format is taken to carry the data model (JSON does not carry NaN)."
  }
 ]
}