notes = {
'C01': ('partial', 'False of the code from 2^63 on (writer stops after nine 7-bit groups): refuted by C01_varuint_roundtrip_false; proved for all values below 2^63; C01_varuint_exact describes all u64.'),
'C02': ('proved', ''),
'C03': ('proved', 'Allocation is not modelled; the refusal happens before any body byte is consumed.'),
'C04': ('proved', ''),
'C05': ('proved', ''),
'C06': ('proved', 'For well-formed types (all types accepted by validation, C06_covers_validated) and columns within the 2^30-row limit the reader enforces; canon is the normal form (FixedString cut, byte arrays as strings, UInt8 in Int8 columns).'),
'C07': ('partial', 'False of the code for LowCardinality (flags announcing neither dictionary): C07_row_count_false; exact count proved for all types but LowCardinality itself (bare or inside Nullable), arrays, maps and tuples of it included; upper bound for all.'),
'C09': ('proved', ''),
'C10': ('proved', ''),
'C11': ('proved', ''),
'C12': ('partial', 'False of the code: long/short tuples, ragged maps and NULL for Nullable(Point) pass validation; proved under the missing shape checks.'),
'C13': ('proved', ''),
'C18': ('partial', 'False of the code for enum names containing a parenthesis, comma, equals sign or outer white space (C18_enum_name_fails); proved for all other types at every depth.'),
'C19': ('partial', 'False of the code: a stray closing parenthesis panics in debug builds, a lone quote in every build (C19_parse_panics). Proved: in release builds these lone quotes are the only cause; in any build every well-bracketed text without one is safe.'),
'C20': ('proved', ''),
'C21': ('partial', "Exact characterisation proved (C21_validate_iff_partial); the numeric ranges differ from ClickHouse's (scale 0 and DateTime64(0) refused, DateTime64(10..18) accepted: C21_ranges_fail); agreement with ClickHouse proved where the ranges agree."),
'C22': ('partial', 'False of the code for enums without a variant numbered 0 (C22_enum_default_fails); proved otherwise.'),
'C14': ('proved', 'For blocks whose typed columns all have data of the row count, at every revision; block header flag excluded (C15).'),
'C15': ('partial', 'False of the code: the overflow flag is always read back as set (C15_overflow_flag_fails); bucket number proved; exact behaviour in C15_header_exact.'),
'C16': ('partial', 'Refusal and success halves proved for all blocks. "Never a complete block on the wire" proved when the cut is visible (rows > 0 and no zero-width type, or the last column is not the ragged one); C16_ragged_incomplete_fails shows it is false otherwise.'),
'C23': ('partial', 'False of the code only when the template itself puts a quote directly after the argument (C23 negation); proved for every byte string and every following text that does not start with a quote.'),
'C26': ('proved', 'For the fragments still held by the builder; an error in an overwritten clause is dropped with it (C26_overwritten_error_dropped).'),
'C27': ('partial', 'False of the code for decimals with fewer digits than the scale, negative Int256, one-element tuples, and Decimal256 panics (all four proved as negations); proved for every other value at every depth. Float, IPv6, date-time and geo texts are produced by external libraries and are parameters.'),
'C28': ('proved', ''),
'C42': ('proved', "LZ4 and CityHash are external: assumed inverse / deterministic in the statement. Within the protocol's 2^30 frame limit; beyond it the client sends a frame any reader refuses (C42_oversize_refused)."),
'C43': ('proved', 'The announced raw size is not among the checked fields: C43_announced_size_unchecked.'),
'C44': ('proved', ''),
'C39': ('partial', 'False at server revisions exactly 54058, 54372 and 54401, where the code compares with > (C39_hello_false); proved for every other revision. Numbers below 2^63 (C01).'),
'C40': ('partial', 'Proved for data/totals/extremes (plain, and compressed over any split into frames), progress, profile, pong, end of stream, table columns, table status, exceptions without nested ones, unknown ids. False for exceptions with nested ones (C40_nested_false), log packets (C40_log_false) and part UUIDs in the UUID column layout (C40_parts_false).'),
'C41': ('proved', 'Against an independent revision-aware server reader; telemetry is never sent by the crate and is assumed absent.'),
'C57': ('proved', 'Past 64 bits: panic with overflow checks, wrap-around without; order still irrelevant.'),
'C62': ('proved', 'Every reader; compressed payloads included.'),
'C29': ('proved', 'Every interleaving; includes that the next query does get sent (C29_advances) and that each is sent with its own text (C29_order).'),
'C30': ('proved', 'Safety (prefix, nothing lost, end of stream means everything read) and that a listening caller can always read on.'),
'C31': ('proved', 'Order, isolation, and that the next submitted query gets sent.'),
'C32': ('proved', "The broadcast channel's own capacity (100 reports, lagging receivers lose the oldest) is tokio's and is not modelled."),
'C33': ('partial', 'False of the code when the server ends the insert early: a block already queued is then sent inside the next query (C33_inside_false). Proved: after its own query always; inside it as long as the server has not ended it; order, integrity and acknowledgement of blocks.'),
'C34': ('proved', 'Both directions: illegal packets end the task, and nothing else does except transport failures and dropping all handles.'),
'C64': ('partial', 'False of the code: a caller in the middle of its stream sees a normal end (C64_loss_reported_false). Proved for queries and blocks not yet sent. A caller can tell: if the client is not closed at any time after a stream ended, the answer was complete (C64_open_means_complete_partial).'),
'C65': ('partial', 'False of the code (C65_not_held_up_false, and C65_stuck_task for every continuation). Proved when the caller leaves or keeps room in its channel.'),
'C35': ('partial', 'False of the code: a request taken while a packet has only partly arrived makes select! drop the half-done read and its bytes (C35_interleaving_false). Proved when no request is taken in the middle of a packet.'),
'C37': ('proved', 'Columns, bytes on the wire as the server reads them, and the whole insert.'),
'C63': ('partial', 'False of the code: an exception after the header block is never looked at (C63_reported_false). Proved: success means the header arrived and everything was sent; an exception that is the first answer is returned.'),
'C45': ('partial', 'Full round trip for every Rust type code and column type that go together, nested without bound, hinted or not, and through the wire. The full English claim is false: Some(None) becomes None, a VecTuple over LowCardinality members cannot be read, and a byte vector hinted with an array of strings cannot be read back (all proved). Json<T>, references and chrono/decimal types are outside the universe of codes. What is asked of a map is that its keys differ (C45_distinct_keys).'),
'C46': ('partial', 'Scalars, strings and the outer level of compound types: exact value or the unexpected-type error; no panic for any bytes off the wire; nothing lost. The full claim is false for compound types without elements (C46_mismatch_accepted).'),
'C47': ('partial', 'Every date from 1970 to 2149-06-06 round-trips and denotes the right calendar day. The refusal half is false of the code: dates outside the range silently wrap to another day (C47_outside_not_refused).'),
'C49': ('proved', 'For every width, scale and raw value whenever the parts are returned at all; always returned for the scales ClickHouse allows; above them the modulus panics or is wrong (C49_scale_too_large).'),
'C50': ('proved', 'Halves, reinterpretation and text for every 256-bit value.'),
'C51': ('partial', 'Writing is exact or refused for all mantissas, scales up to 38 and column types; reading is exact. Reading back is proved for scales up to 28 and 96-bit mantissas; beyond it is an error, so the full claim is false (C51_readback_false).'),
'C52': ('proved', 'All lists of values through conversion, wire and back, with the octet layout stated explicitly.'),
'C53': ('partial', 'Every history of fetches by name and index. False of the code: try_get at index = len panics instead of reporting out of bounds (C53_index_false); setting an empty name after a fetch panics (C53_set_empty_name).'),
'C56': ('proved', 'For every nested error.'),
'C60': ('partial', 'Proved: every bit pattern survives with the feature; without it no type name, value or block with a BFloat16 is accepted or produced at any depth. False of the code: validation accepts the type, and writing, reading or its default panics instead of an error (C60_refused_cleanly_false).'),
'C61': ('partial', "Full round trip and layout for the crate's own types. geo_types conversions: proved for closed rings; false for open rings, empty polygons (C61_geo_back_false) and NaN start points (C61_geo_nan_false). geo-types' Polygon::new is external, modelled from its documentation."),
'C54': ('partial', "Proved in full: the round trip for every struct, value and column order (C54_roundtrip, closed under nesting, flattening and from/into), reading by position, where each field's value comes from, duplicates and missing columns refused. Not as stated: unknown columns are ignored only behind the positional columns or in structs with a flattened field (C54_unknown_ignored_partial); otherwise they are refused or even become a field's value (C54_unknown_ignored_false, C54_unknown_misassigned). deny_unknown_fields does not compile in the code (the error variant it names does not exist) and is not modelled. Further negations: write-only fields, defaults of nested fields, skipped flattened fields, hints of nested rows, serialize_with on nested or flattened fields (what is declared is then not what is written; C54_serialize_with_false). What nested, flattened and skipped fields hold after reading: C54_nested_source, C54_flatten_source, C54_skipped_source."),
'C55': ('partial', 'Every rule gives the documented form for every name made of words (C55_rule_as_promised; every name is made of words: C55_words_exist); distinct names stay distinct under every rule that keeps separators (C55_distinct). Partial: PascalCase and camelCase keep apart only names whose words begin with letters (C55_distinct_letters_partial); a_1 and a1 collide (C55_pascal_collision). camelCase panics at compile time on names of underscores only or starting with a non-ASCII character (C55_camel_panics).'),
'C66': ('partial', 'False as stated: a non-literal value such as rename = NAME is ignored without an error (C66_ignored_false). With literal values: acceptance and result are exactly those of the attribute table (C66_accepted_partial, C66_result_partial), tuples, units, enums and unions are refused.'),
'C68': ('proved', 'the RFC 3339 parser is external: a parameter of the model, the theorems hold for every one'),
'C69': ('proved', 'C69_stream: every history of a connection, any revision, with and without compression; C69_hello_first, C69_queries, C69_revision. Assumes texts below 2^63 bytes, blocks the protocol can carry (C14/C42 limits), LZ4 inverse. C69_whole: a block counts as sent only if every byte of it could be written.'),
'C70': ('partial', 'False in two points: C70_accepted_false (connection lost after SET was sent, connect returns Ok), C70_reason_false (server exception replaced by a protocol error). Proved: C70_accepted_partial, C70_set_first, C70_refused, C70_closed, C70_valid, C70_prequel.'),
'C72': ('partial', 'False of i256 and FixedPoint256 (the array of unsigned bytes is compared): C72_signed_false; C72_signed_partial gives the order exactly (right within a sign, negatives last). Proved for all others, and agreement with equality for all.'),
'C74': ('partial', 'False when the caller of insert_native_raw passes a block without columns (C74_server_false). Proved otherwise, and in full for insert_native and insert_native_block.'),
'C75': ('partial', 'False: inserting works only if the column is called _ (C75_insert_false for every other table; C75_insert_partial). Reading is proved for every column name.'),
'C76': ('proved', 'serde and serde_json are a parameter; the hypothesis JsonKeeps is their own round trip.'),
'C77': ('partial', 'False of the code: the type of a list is inferred from its first element, and an empty list or None infers String; enum values panic. Proved for all Inferable values (a first element that shows its type), and for every value when a suitable type is given.'),
'C78': ('partial', 'The predicates generated are characterised exactly (C78_exact, C78_users) and suffice for fields that are serialized as they are; the full claim is false: fields read but not written get no bound (C78_reading_false), and nested fields ask for more than is called (C78_nested_false).'),
'C80': ('partial', 'False as stated (C80_false). Proved for every history in which no request is taken in the middle of a packet, and outright for callers that take turns (C80_in_turn), where that cannot happen.'),
'C81': ('proved', 'Both directions of what is accepted, the row type, and the limits (paths like std::vec::Vec are refused, a panic of the macro; unnoticed when the struct is converted both ways). Which characters an identifier may have is a parameter (unicode_ident).'),
'C82': ('proved', 'Under the fairness assumptions written in Spec/Fair.lean, each about the executor (tokio::select! does not starve a ready branch), the callers or the server. C82_fair_run: they are met by every finite run that leaves nothing to do; C82_readers_needed: without readers the claim fails (see C65).'),
'C83': ('partial', 'The full claim is false: lock polls, so it can lose every race (C83_obtained_false, a schedule meeting all assumptions of Spec.Served in which the lock is free again and again). Proved: it obtains the lock unless others obtain it again and again forever; obtained outright when from some time on nobody else takes it.'),
'C84': ('partial', 'The full claim is false when a name or a text overlaps with a placeholder (C84_filled_in_false). Proved for every script whose texts cannot be mistaken for a placeholder (Spec.Unmistakable), and for the history table with any names without %. That these are the texts the server runs is C59.'),
'C85': ('partial', 'False as to the streams: dropping the last handle ends a stream in the middle without an error, nobody being at fault (C85_stream_ends_false). Proved: all that had been received can still be read (C85_received_stays_partial), the connection is open while a handle exists unless the transport or the server is at fault, calls in progress keep their handle, closed is final.'),
'C17': ('partial', 'Proved for all rectangular blocks with columns and, for draining, at most 2^57 rows; false on a block with rows but no columns (C17_agreement_fails: iter_rows yields empty rows, owning iterators none) and beyond 2^58 rows (C17_take_iter_rows_fails: draining reserves one column slot per row and panics).'),
'C08': ('partial', 'False of the code (decreasing array offsets in debug builds, map offsets in all builds, short dictionary columns of map keys, FixedString lengths of 2^63 and more). Proved: every stream for types without maps (C08_no_panic_partial); every accepted type in every build where offsets do not decrease and dictionary columns of maps are complete (C08_orderly_partial).'),
'C86': ('partial', 'False of the code when a granule refers to both dictionaries (C86_both_false: own keys are counted first, ClickHouse counts the shared dictionary first) and for NULL in a shared dictionary (C86_shared_null_false). Proved for all other sequences of granules (C86_granules_partial); C86_own_first says what is read in every case.'),
'C38': ('partial', 'Invalid values and unknown columns are never sent: the call fails and neither that block nor anything after it goes out (C38_refused, C38_insert_stops, C38_sent_valid). It fails with an error if the refused value has a text; otherwise (Decimal256, maps with unequal halves, unformattable instants) the call panics (C38_refusal_panics_false). False of the code besides: a column no row gives is silently left out, rows that fail to serialise are dropped silently, and duplicate plus missing values realign (the other _false theorems).'),
'C36': ('partial', 'False of the code for a block announcing 2^58 rows without columns (C36_stream_false: the row stream panics) and for row types whose conversion panics on one row: the whole block is lost, good rows included (C36_row_panic_false). Proved for responses whose blocks are rectangular and announce at most 2^57 rows, and conversions that do not panic on them; every block the reader accepts is typed and, unless it has a column that is LowCardinality itself, rectangular (C36_read_blocks_*). C36_connection ties it to a connection history.'),
'C24': ('proved', 'Stated on token lists, and (C24_text) on texts: for every tokenizer that follows the patterns declared in query_parser.rs and their order (relation Lexes; the matching engine and parse_str are external, QuoteReader says what is assumed), the query sent is the template piece by piece, placeholders in quoted literals, comments and heredocs untouched. A $N or $$ that the heredoc pattern could start at is excluded (piece condition).'),
'C25': ('proved', 'On token lists, and (C25_text) on texts for every tokenizer following the declared patterns. C25_two_comments: the declared pattern of /*...*/ also matches up to the last */ of the script; scripts with two such comments are excluded from C25_text.'),
'C87': ('partial', 'Proved: what a subscriber was told accounts for the reports since its subscription, in order, gaps announced with their length; exactly what it can be told next; completeness for one query; the end is told only without handles. False: that it is told of the end of the connection (C87_end_told_false): every handle keeps a sender.'),
'C88': ('partial', 'For the three widths at every scale ClickHouse allows: never fails, keeps order and sign, exact on whole numbers up to 2^53, within one part in 2^50 of the number. That it is the nearest float is false (C88_nearest_false: 1.14); above those scales it panics with overflow checks (C88_scale_too_large).'),
'C89': ('partial', 'False of the code: sixteen bytes announce 2^30 rows of Tuple(), which take no bytes (C89_empty_tuple_false, C89_fixed_zero_false), and the rows of a LowCardinality column each hold a copy of the string they name (C89_low_cardinality_false). Proved for all other types on any bytes, columns and blocks: at least a byte for each row and at most 2 + d values for each byte (d: depth of nested tuples), LowCardinality included as to the number of values, strings counted in otherwise. Reservations made before reading are not counted.'),
'C90': ('partial', 'False as stated: a value that is not a literal, such as rename = NAME, is passed over in silence (C90_silent_false). For everything else the errors are exactly the report, on fields (C90_field_partial) and on whole structs (C90_struct_partial, C90_silent). The wording of the messages is not modelled; a rename rule that panics on a field name ends the macro with the panic instead of the report.'),
'C91': ('proved', 'For every Rust type code, column type and value of the column: success iff readable on every level; error e iff e is that of the first part that is not as wanted (C91_error_says_why), also for anything decoded from a server (C91_from_wire). The texts of the errors are in Spec/Refuse.lean. Json<T>, references and the chrono/decimal types are outside the universe of codes.'),
'C92': ('partial', 'False of the code for tuples with named members (refused) and for enum names with commas or escaped quotes (C92_server_names_false). Proved for every other name in the grammar of Spec/ServerText.lean, nested without bound with any white space (C92_server_names_partial), and for the header of a column (C92_column); no name is written for two types (C92_unambiguous).'),
'C93': ('partial', 'False of the code: for every n there is an accepted name of 7n+6 characters nested n deep (C93_unbounded_false), and it is valid (C93_validated). Proved: the depth is at most a fifth of the length of the name (C93_depth_partial). The machine stack is not modelled; depth is the number of nested calls.'),
'C94': ('partial', 'False in full: a batch can be overtaken forever by newer batches (C94_ends_false, in which all others end). Proved: it ends unless others obtain the lock again and again, forever (C94_ends_partial); it ends if from some time on nobody else obtains the lock, also after the death of a holder (C94_uncontended); and then, if the server accepts every statement, it reports all scripts done (C94_succeeds).'),
'C95': ('partial', 'False in full: a comma after the last argument, a plus sign, leading zeros and empty lists are accepted and the white space at the ends of enum names is dropped (C95_accepted_false). Proved: exactly the texts of a grammar written independently of the parser are accepted, as the types it says (C95_accepted_partial, for alphabets where white space is no letter), and every accepted type has existing zones and numbers that fit (C95_vetted, no assumption).'),
'C97': ('partial', 'False as stated (C97_false: a request taken mid-packet loses the bytes read so far, the caller never reads its block and the connection dies). Proved: with no request taken in the middle of a packet every caller that stays reads exactly the answer written to its query and reaches the end of its stream, and the connection never breaks down (C97_read_partial, C97_alive_partial); in full when callers take turns (C97_in_turn). Assumptions on server, transport, executor and callers are the structures Serves, Runs, Attend, InTurn of Spec/LinkFair.lean; an execution meeting all of them is shown.'),
'C48': ('partial', 'DateTime, DateTime64 at precisions up to nine digits and the chrono hints, for all instants in range. The refusal half is false of the code: negative instants are refused but overflow wraps or panics (C48_overflow_not_refused), a column value beyond the calendar panics (C48_dt64_read_outcome), and a precision above nine panics in debug builds and silently wraps in release ones (C48_precision_above_nine, C48_precision_release_false).'),
'C98': ('partial', 'For all builder calls and all fragments that are complete by themselves (read to their end outside quotes, comments and parentheses). Without that the claim is false of the code: C98_comment_false (a condition ending in a line comment swallows the parenthesis the builder adds), C98_parenthesis_false (unbalanced parentheses split a condition, and a later condition is then required of one half only).'),
'C79': ('partial', 'For every congruence on types and expressions in which Self is the struct, the fields, the bounds and the where clause mean what was written (C79_same, C79_struct). "No Self is left" holds where the macro looks (C79_no_self_partial) and is false for constants given as arguments, macros and constraints (C79_no_self_false).'),
'C96': ('partial', "Every error with every payload. The text tells the kind (C96_kind) and an exception's code (C96_code); its parts when the name has no ': ' and the message no line break (C96_parts_partial, false otherwise: C96_parts_false); a clone reads the same (C96_clone); the column goes into the text (C96_column). 'already exists' is found exactly when a carried text says so (C96_says), and then try_lock reports the lock as taken, lock and migrations wait, otherwise they fail with the error (C96_attempt). That the lock is then taken is false: the server need only quote a lock's name (C96_taken_false). Every payload is in the text (C96_carries)."),
'C100': ('partial', 'Exact: the names are right if and only if the struct fulfils the listed conditions (C100_exact_partial, C100_ordinary_partial). The macro checks none of these conditions, so the full claim is false: six refutations. That the traits needed are implemented is C78; in macros and constant arguments every identifier counts as a name.'),
'C101': ('partial', 'Results (at most 33 waiting) and blocks of inserts (at most 1024 waiting) in every reachable state, and both bounds are reached. Queries waiting to be sent are not bounded (C101_queries_false, for every n).'),
'C99': ('partial', 'For all values, all templates whose arguments stand apart from words and literals and not directly behind a minus sign or slash, and every tokenizer following the declared patterns; also for templates given to a SELECT builder (C99_select_partial). False of the code behind a minus sign (C99_minus_false: a negative number completes it to a comment, and the conditions behind it are not read). The reader does not read heredocs, # comments, semicolons: templates with them are not covered. Texts made by libraries (floats, IPv6, geometric values) are assumed plain (PlainExt).'),
'C59': ('partial', 'Every statement in order, once, completely on success, nothing after the first failure, the count, and the release, for every batch, schedule and failure, broken connections reported as success included (C59_in_order, C59_complete, C59_first_failure, C59_releases_on_failure, C59_lock_free_afterwards, C59_runs_to_end); each statement runs under the lock, exclusively unless the lock was forcibly reset (C59_under_lock_partial). False in general: a migration that waited 60 s resets the lock of one still running (C59_lock_stolen_false); a connection that breaks during the release leaves the lock taken although Ok is returned (C59_unreleased_false), and one that breaks during a statement can let it be reported as successful without having been run (C59_phantom_false; the call then fails). The tokenizer is a parameter. Without the lock no migration statement is sent (C59_no_lock_no_work).'),
'C73': ('partial', 'False in three points: the zone is always replaced by UTC (C73_zone_false), DynDateTime64 always comes back at precision 6 (C73_dynamic_false), and zones not whole minutes from UTC shift the instant (C73_seconds_false), by at most half a minute (C73_drift). Proved: every Date; the instant of every DateTime, and of DateTime64 up to 9 digits and before the last day of 9999; refusals. chrono is a parameter with a stated law.'),
'C102': ('proved', 'The outcome of each call as a function of the history; the illusion of C64 (a broken connection read as the end of an answer) is excluded by the client being open at any later time. Rows are those of well-formed blocks of at most 2^57 announced rows (see C36); success of inserts is not part of it (C63).'),
'C103': ('partial', "Accepted exactly when the times are in the column's zone and None stands in Nullable only (C103_accepted, an equivalence); kept and read back when moreover texts have room and no None is for a geometric type (C103_kept_partial, C103_column_partial, C103_struct_partial, C103_insert_partial); chrono times and Decimals (C103_chrono, C103_decimal). The claim without these conditions is false of the code: C103_zone_false, C103_fixed_false, C103_null_point_false, C103_optional_decimal_false. FieldsFit is a struct without attributes; attributes are C24 and C54."),
'C71': ('proved', 'C71_roundtrip is the whole way from insert_native to query_collect through the wire format at both ends; C71_row_type and C71_derived discharge its hypothesis on the row type for hand-written and derived rows. The server is not modelled beyond returning the rows it received (in order, any block division and column order); values outside the normal form of their column (FixedString with NULs, bytes in an Int8 column) are excluded here and treated in C06. C71_readers is the same for readers of another type or other code than the writer, up to a relation.'),
'C104': ('proved', "For every family of conversions: C104_stored, C104_column, and for rows C104_struct, C104_insert; C104_chrono, C104_decimal and C104_json show that the library's own such types meet the condition. Keys of maps are ordinary types. The condition on a user value includes that it is not written as NULL (Some of a NULL is lost, see C45)."),
'C105': ('proved', 'For every family of user conversions and every container: C105_write, C105_read (values a column can hold), C105_from_wire (whatever was received); rows of structs: C105_row_write, C105_row_read (columns of any names, in any order and number). The standard parts of a container never fail to be written. Map keys are ordinary types.'),
'C106': ('proved', 'C106_select is the whole way from insert_native to query_collect for any writer and any reader, C106_struct discharges its condition for structs, C106_insert combines them. The server is not modelled beyond answering with rows it received. Columns the reader does not declare are the subject of C54 (refused, or read by position).'),
'C107': ('partial', 'False of the code: room for announced rows is reserved before any has come (C107_numbers_false), for a FixedString as wide as the type text says (C107_fixed_false, with any allowance below 2^63), and 2^32 for the contents of a frame of 25 bytes (C107_frame_false). Proved for every input: what a single reservation can be (C107_one_partial, C107_frame_partial) and, for types without Tuple() and FixedString(0), that all together stay within the weight of the type for each byte taken or received and one largest reservation more (C107_total_partial). C107_readers: the readers with notes are the readers of the other claims. Reservations are counted in elements; blocks are covered column by column.'),
'C108': ('partial', 'Exact: the bare names of the generated code are understood as meant exactly in modules with the listed properties where no constant, and no constant parameter, has the name of one of the variables it uses (C108_exact_partial, no hypotheses); usual modules that import Row where there are flattened fields are such (C108_usual_partial). False in full: four refutations, three of them for every struct. Methods that a type has itself, and builtin attributes, are not counted as names of the module.'),
'C109': ('partial', 'Exact for all values whose precisions are below 20 (type validation ends at 18): which have a text, and that the others panic (C109_exact_partial), also as arguments of a template (C109_arguments), by column type (C109_column_partial) and as refused values of inserts (C109_refusal, C109_refused_batch). Times: the same instant for zones whole minutes from UTC, up to the year 9999; half a minute off at most in others. False in full: five refutations. An error from the formatter counts as a panic, as in to_string and format!.'),
'C67': ('partial', 'Symmetry and transitivity for all values. False of the code for geometric values: a point with a NaN coordinate differs from itself (C67_reflexive_false) and points differing in the sign of a zero are equal with different hashes (C67_hash_false). Proved for every other value, scalar NaNs and zeros included. The words fed to a hasher tell the value, with no condition (C67_hash_tells).'),
'C58': ('partial', 'Any number of clients and tasks, every schedule, with deaths, cancellations and broken connections (a break may be reported as an error or as success, whether or not the server ran the statement): holders whose connections live are at most one more than the forced resets (C58_holders_bounded), so exclusion holds among them while nobody calls reset() (C58_exclusion_partial). False with reset(), which the quantifier includes (C58_exclusion_false), and for a caller whose connection broke during the attempt (C58_lost_false); such a handle does no harm, for nothing of that client reaches the server any more (C58_cut_off, C58_cut_fails). A released lock can be acquired again (C58_reacquired, C58_released, C58_attempt, C58_lock_tries_again), the lock is free when all is at rest (C58_free_at_rest); a holder that dies leaves it stuck until a reset (C58_stuck_until_reset). Letting a handle go spawns the task that releases it (C58_given_back); locks of different names never touch (C58_names_apart). The tables that exist are in every schedule what the statements run so far leave (C58_tables).'),
'C110': ('partial', 'Exact for every value whose times can be written (up to nine digits, up to the year 9999, zones whole minutes from UTC): it comes back with its times in UTC and at six digits (C110_back_partial), so the same if and only if they were (C110_exact_partial, whose second half holds of anything read at all); the instant is kept up to six digits and cut at microseconds beyond (C110_instant); values without times always come back the same (C110_timeless); reading anything at all gives a value or an error (C110_read). False in full: zone, precision, and a panic before 1970. The format is taken to carry the data model (JSON does not carry NaN).'),
}
