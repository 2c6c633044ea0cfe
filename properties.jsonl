{"id": "C01", "title": "Variable-length integers round-trip", "statement": "Every unsigned 64-bit integer written as a variable-length integer is read back as the same number, the reader consuming exactly the written bytes and leaving whatever follows on the stream untouched.", "quantifier": "all u64 values and all bytes that may follow on the stream", "why_tests_cant": "2^64 values times arbitrary trailing bytes; the failing region (values of 2^63 and up) is invisible to tests over realistic sizes", "anchors": ["klickhouse/src/io.rs: read_var_uint, write_var_uint"]}
{"id": "C02", "title": "Variable-length integer reading is total and bounded", "statement": "Reading a variable-length integer from any byte stream never panics, consumes at least one and at most nine bytes, and fails only when the stream ends before a terminating byte; the writer never emits more than nine bytes.", "quantifier": "all byte streams of any length; all u64 values for the writer", "why_tests_cant": "unbounded set of hostile streams", "anchors": ["klickhouse/src/io.rs: read_var_uint, write_var_uint"]}
{"id": "C03", "title": "Length-prefixed strings round-trip and oversize lengths are refused", "statement": "Any byte string of at most 2^30 bytes is read back exactly after being written, leaving the following bytes untouched; a length prefix above 2^30 is refused with a protocol error before any byte of the body is read or any memory is allocated for it; text reading fails exactly on invalid UTF-8.", "quantifier": "all byte strings, all length prefixes, all trailing bytes", "why_tests_cant": "the boundary is at one gibibyte and the set of strings is unbounded", "anchors": ["klickhouse/src/io.rs: read_string, write_string, read_utf8_string, try_read_string", "klickhouse/src/protocol.rs: MAX_STRING_SIZE"]}
{"id": "C04", "title": "Fixed-width scalars have the ClickHouse wire layout", "statement": "Each integer, float, decimal, date, timestamp, UUID, IP and enum value is written as exactly its type's number of bytes in the layout ClickHouse specifies (little-endian two's complement for numbers, including 256-bit ones; two little-endian halves for UUID; network-order octets for IPv6), and reading those bytes gives the value back bit for bit.", "quantifier": "all fixed-width types and all their values, NaN payloads included", "why_tests_cant": "256-bit domains; layout errors are symmetric in encoder and decoder, so round-trip tests alone miss them", "anchors": ["klickhouse/src/types/serialize/sized.rs", "klickhouse/src/types/deserialize/sized.rs"]}
{"id": "C05", "title": "FixedString(N) always occupies N bytes", "statement": "Writing any string to a FixedString(N) column emits exactly N bytes per row whatever the string's length (truncating or NUL-padding), and reads back as the first N bytes cut at the first NUL; hence it is lossless exactly for strings of at most N bytes without a NUL byte.", "quantifier": "all N below 2^63 (no longer buffer exists), all byte strings", "why_tests_cant": "unbounded N and contents; off-by-one at length N, N-1, N+1 for every N", "anchors": ["klickhouse/src/types/serialize/string.rs", "klickhouse/src/types/deserialize/string.rs"]}
{"id": "C06", "title": "Columns of every type round-trip", "statement": "For every column type, however nested, and every list of values of that type, writing the column (state prefix then data) and reading it back with the same type and row count yields the same values in the same order, up to the documented normalisations (FixedString padding, byte-array strings read back as strings, empty dictionary prefix), and leaves the bytes after the column untouched.", "quantifier": "all types with unbounded nesting, all value lists of any length, all trailing bytes", "why_tests_cant": "types and values are recursive, so the space is infinite in two directions", "anchors": ["klickhouse/src/types/mod.rs: serialize_column, deserialize_column, serialize_prefix_column, deserialize_prefix_column", "klickhouse/src/types/serialize/*", "klickhouse/src/types/deserialize/*"]}
{"id": "C07", "title": "Reading a column yields exactly the announced number of rows", "statement": "Whenever reading a column of n rows succeeds, it returns exactly n values, whatever bytes the server sent.", "quantifier": "all types, all row counts, all byte streams", "why_tests_cant": "quantifies over hostile or unusual server streams, including flag combinations no test server sends", "anchors": ["klickhouse/src/types/deserialize/*", "klickhouse/src/types/deserialize/low_cardinality.rs: LowCardinalityDeserializer"]}
{"id": "C08", "title": "Reading a column never panics", "statement": "Reading a column from any byte stream returns values or an error; it does not panic the connection task.", "quantifier": "all types, all row counts, all byte streams, both overflow-check settings", "why_tests_cant": "the panicking streams (non-monotone offsets) are never produced by a correct server", "anchors": ["klickhouse/src/types/deserialize/array.rs", "klickhouse/src/types/deserialize/map.rs", "klickhouse/src/types/deserialize/geo.rs", "klickhouse/src/types/deserialize/low_cardinality.rs"]}
{"id": "C09", "title": "Array and map columns use cumulative end offsets", "statement": "An array column of n rows is written as n little-endian 64-bit offsets, the i-th being the total number of elements of rows 0..i, followed by exactly that many elements in row order; a map column is laid out exactly as the array of its key/value tuples.", "quantifier": "all element types, all lists of arrays including empty ones", "why_tests_cant": "unbounded row counts and element counts", "anchors": ["klickhouse/src/types/serialize/array.rs", "klickhouse/src/types/serialize/map.rs"]}
{"id": "C10", "title": "LowCardinality dictionaries are duplicate-free and every index resolves", "statement": "A LowCardinality column is written with each distinct value appearing once in the dictionary (the NULL slot first when nullable), every row index lying inside the dictionary and resolving to that row's value, and an index width (1, 2, 4 or 8 bytes) wide enough for the dictionary.", "quantifier": "all value lists, all dictionary sizes including those crossing 255/256 and 65535/65536", "why_tests_cant": "needs dictionaries larger than 2^32 to sample every width; depends on duplicates pattern", "anchors": ["klickhouse/src/types/serialize/low_cardinality.rs: LowCardinalitySerializer"]}
{"id": "C11", "title": "Nullable columns mask exactly the null rows", "statement": "A Nullable column is written as one mask byte per row, 1 exactly where the row is NULL, followed by a full inner column in which each NULL row holds the inner type's default; on reading, exactly the masked rows become NULL and the others are unchanged.", "quantifier": "all inner types ClickHouse allows inside Nullable (not geometric ones, for which see C12), all patterns of nulls", "why_tests_cant": "2^n null patterns for each row count n", "anchors": ["klickhouse/src/types/serialize/nullable.rs", "klickhouse/src/types/deserialize/nullable.rs", "klickhouse/src/types/serialize/sized.rs", "klickhouse/src/values/mod.rs: Value::justify_null_ref"]}
{"id": "C12", "title": "Validated values always serialise", "statement": "A value that passes validation against a column type is written to that column without panicking, and what is written is a complete, correctly aligned column for that type.", "quantifier": "all types and all values the validator accepts", "why_tests_cant": "validator and serializer are separate recursive functions over types; disagreement shows only on shapes tests do not build (tuples of the wrong length, maps with ragged sides)", "anchors": ["klickhouse/src/types/mod.rs: validate_value, inner_validate_value", "klickhouse/src/types/serialize/tuple.rs", "klickhouse/src/types/serialize/map.rs"]}
{"id": "C13", "title": "Column encodings are injective", "statement": "Two different lists of (canonical) values of one type never produce the same bytes, and no encoding is a proper prefix of another with the same row count, so a reader can never confuse two columns or drift into the next one.", "quantifier": "all pairs of value lists of the same type and length", "why_tests_cant": "quantifies over pairs from an infinite domain", "anchors": ["klickhouse/src/types/serialize/*"]}
{"id": "C14", "title": "Blocks round-trip", "statement": "A block written with n rows and distinct column names is read back with the same row count, the same columns in the same order with the same types and the same values, consuming exactly the written bytes, for every negotiated protocol revision.", "quantifier": "all blocks of any width, length and column types; all revisions", "why_tests_cant": "unbounded; interplay of name order map, type strings and column codecs", "anchors": ["klickhouse/src/block.rs: Block::read, Block::write"]}
{"id": "C15", "title": "Block header information round-trips", "statement": "The overflow flag and bucket number written in a block header are the ones read back.", "quantifier": "all header values", "why_tests_cant": "the flag is always false in tests, so the asymmetric encoding of it is never seen", "anchors": ["klickhouse/src/block.rs: BlockInfo::read, BlockInfo::write"]}
{"id": "C16", "title": "Ragged blocks are never completed on the wire", "statement": "Writing a block in which some column has a number of values different from the block's row count reports an error and never writes a complete block; when writing succeeds, every column written has exactly the block's row count.", "quantifier": "all blocks", "why_tests_cant": "depends on position of the ragged column among arbitrarily many", "anchors": ["klickhouse/src/block.rs: Block::write"]}
{"id": "C17", "title": "Row iterators agree with the columns", "statement": "Iterating a block's rows, by reference, by draining or by consuming, yields exactly the block's row count of rows (none when it has no columns), row i pairing every column name, in column order, with that column's i-th value; the three ways agree.", "quantifier": "all blocks with well-formed columns", "why_tests_cant": "unbounded widths and lengths; draining has extra index arithmetic", "anchors": ["klickhouse/src/block.rs: BlockRowValueIter, BlockRowIter, BlockRowIntoIter, Block::iter_rows, take_iter_rows, into_iter_rows"]}
{"id": "C18", "title": "Type names round-trip through their text form", "statement": "Rendering a type as ClickHouse text and parsing that text gives the same type back.", "quantifier": "all types with unbounded nesting, all enum variant names, all timezones", "why_tests_cant": "recursive grammar; enum names are arbitrary strings containing commas, parentheses and quotes", "anchors": ["klickhouse/src/types/mod.rs: impl Display for Type, impl FromStr for Type, parse_args, eat_identifier, parse_enum_variant"]}
{"id": "C19", "title": "Parsing a type name never panics", "statement": "Parsing any string as a type name returns a type or an error, never a panic, in debug and release builds.", "quantifier": "all strings", "why_tests_cant": "infinite input space; the panics sit at unbalanced parentheses and one-character quoted strings", "anchors": ["klickhouse/src/types/mod.rs: FromStr, parse_args, parse_enum_variant"]}
{"id": "C20", "title": "Decimal(P, S) selects the right storage width", "statement": "Decimal(P,S) parses to the 32, 64, 128 or 256-bit decimal with scale S exactly when P is at most 9, 18, 38 or 76 respectively and is refused for larger P.", "quantifier": "all P and S", "why_tests_cant": "boundary at every threshold, all S", "anchors": ["klickhouse/src/types/mod.rs: FromStr (Decimal)"]}
{"id": "C21", "title": "Type validation accepts exactly ClickHouse's composable types", "statement": "Type validation refuses LowCardinality of anything but (nullable) strings, fixed strings, dates, IPs and integers, refuses Nullable directly around arrays, maps, tuples, LowCardinality or another Nullable, refuses map keys outside the supported set and refuses decimals out of their precision range, at every nesting depth; and accepts everything else.", "quantifier": "all types with unbounded nesting", "why_tests_cant": "violations can hide at any depth of a recursive type", "anchors": ["klickhouse/src/types/mod.rs: Type::validate"]}
{"id": "C22", "title": "Default values belong to their type", "statement": "The default value used to stand in for NULL or for a missing value of a valid type is itself accepted by that type's value validation, and is ClickHouse's default for the type (zero, empty, NULL for Nullable).", "quantifier": "all types with unbounded nesting", "why_tests_cant": "recursive types; enums need not contain 0", "anchors": ["klickhouse/src/types/mod.rs: Type::default_value, inner_validate_value"]}
{"id": "C23", "title": "String arguments cannot escape their literal", "statement": "A string or byte-string argument rendered into a query becomes a single-quoted literal that a ClickHouse-compliant lexer reads as exactly one string token denoting exactly the original bytes, with no content able to terminate the literal early.", "quantifier": "all byte strings, any text following the literal", "why_tests_cant": "SQL-injection safety is a claim about every string, in particular ones with backslashes, quotes and control bytes in every order", "anchors": ["klickhouse/src/values/mod.rs: escape_string, impl Display for Value"]}
{"id": "C24", "title": "Positional arguments are substituted once, in place", "statement": "Every $N with N between 1 and the number of arguments becomes the N-th argument's text, $$ becomes $, every other piece of the query is copied verbatim in order, and text introduced by an argument is never itself scanned for placeholders.", "quantifier": "all token sequences, and all texts read by any tokenizer that follows the declared patterns; all argument lists", "why_tests_cant": "second-order substitution needs arguments that themselves look like placeholders; combinatorial in query shape", "anchors": ["klickhouse/src/query_parser.rs: parse_query_arguments"]}
{"id": "C25", "title": "Splitting a script into statements loses nothing", "statement": "Splitting a script at semicolons yields the statements in order, each non-empty and trimmed, whose concatenation is the script up to the whitespace around statement boundaries, and semicolons inside quotes or comments do not split.", "quantifier": "all token sequences, and all texts read by any tokenizer that follows the declared patterns", "why_tests_cant": "unbounded scripts", "anchors": ["klickhouse/src/query_parser.rs: split_query_statements"]}
{"id": "C26", "title": "SELECT builder renders clauses faithfully", "statement": "The SELECT builder renders clauses in SQL order whatever the order of builder calls on different clauses, joins all WHERE (and HAVING, PREWHERE) conditions with AND, keeps the relative order of expressions added to the same clause, and reports the first error of any argument instead of a query.", "quantifier": "all builder call sequences", "why_tests_cant": "exponentially many call sequences", "anchors": ["klickhouse/src/query/select.rs: SelectBuilder"]}
{"id": "C27", "title": "Value literals denote the value", "statement": "Rendering a number, decimal, date, array, tuple or map value as query text produces a literal that denotes exactly that value.", "quantifier": "all values with unbounded nesting", "why_tests_cant": "decimals with fewer digits than their scale, negative fractions: infinite domain with sign/width corner cases", "anchors": ["klickhouse/src/values/mod.rs: impl Display for Value"]}
{"id": "C28", "title": "A query template with any failing argument yields an error", "statement": "Binding arguments to a query template yields an error (the first one) if any argument fails to convert and otherwise the arguments in binding order.", "quantifier": "all sequences of bound arguments", "why_tests_cant": "all positions of failure", "anchors": ["klickhouse/src/query/mod.rs: QueryBuilder"]}
{"id": "C29", "title": "Queries are sent in submission order, one at a time", "statement": "On one connection queries reach the server in the order they were submitted, and a new query is sent only when no earlier query is still awaiting its end-of-stream or exception.", "quantifier": "all interleavings of submissions and server packets", "why_tests_cant": "schedules: interleaving of two event sources of arbitrary length", "anchors": ["klickhouse/src/client.rs: InnerClient::handle_request, receive_packet, dispatch_query"]}
{"id": "C30", "title": "Each response goes to the query it belongs to", "statement": "The blocks delivered to a query's caller are exactly, and in order, the data blocks the server sent between that query being sent and its end-of-stream or exception; no block is delivered to another query, duplicated, reordered or dropped while the caller is listening.", "quantifier": "all interleavings of submissions and server packets, all numbers of concurrent queries", "why_tests_cant": "schedules", "anchors": ["klickhouse/src/client.rs: InnerClient::receive_packet"]}
{"id": "C31", "title": "A server exception ends exactly its own query", "statement": "A server exception is delivered as the last item to the query executing when it arrived, other queries are unaffected, and the next queued query is then sent.", "quantifier": "all interleavings", "why_tests_cant": "position of exceptions among arbitrarily many queued queries", "anchors": ["klickhouse/src/client.rs: InnerClient::receive_packet (Exception)"]}
{"id": "C32", "title": "Progress is attributed to the executing query", "statement": "Every progress packet is broadcast with the identifier of the query executing when it arrived, and with no executing query nothing is broadcast.", "quantifier": "all interleavings", "why_tests_cant": "schedules", "anchors": ["klickhouse/src/client.rs: InnerClient::receive_packet (Progress)"]}
{"id": "C33", "title": "Insert data reaches the server only inside its own insert", "statement": "Every data block an insert sends appears on the wire after that insert's query and before any other query.", "quantifier": "all interleavings of inserts, other queries and server packets, exceptions included", "why_tests_cant": "needs a server exception racing with a half-sent insert and a queued query", "anchors": ["klickhouse/src/client.rs: InnerClient::handle_request (SendData), insert_native"]}
{"id": "C34", "title": "Protocol violations close the connection", "statement": "A packet that is illegal in the current state (data or end-of-stream with no query executing, a second hello) ends the connection task with an error; afterwards nothing is sent and every waiting caller observes the end of its stream rather than waiting forever.", "quantifier": "all histories", "why_tests_cant": "needs a misbehaving server at every point of every history", "anchors": ["klickhouse/src/client.rs: InnerClient::receive_packet, run"]}
{"id": "C35", "title": "Submitting work never corrupts an incoming packet", "statement": "Server packets are decoded as the same sequence however the arrival of their bytes interleaves with new requests submitted by callers.", "quantifier": "all splits of the incoming stream into partial arrivals and all interleavings with requests", "why_tests_cant": "needs a request arriving in the middle of a packet split at an arbitrary byte", "anchors": ["klickhouse/src/client.rs: InnerClient::run_inner (select!)"]}
{"id": "C36", "title": "Query results are the concatenation of the blocks' rows", "statement": "The row stream of a query yields every row of every data block in arrival order followed by the error if one arrives; collecting returns all rows or the first error; fetching one returns the first row or a missing-row error; optional fetching returns none exactly when no row arrives.", "quantifier": "all response sequences, including empty blocks and errors at any position", "why_tests_cant": "unbounded number and sizes of blocks", "anchors": ["klickhouse/src/client.rs: query, query_collect, query_one, query_opt, execute"]}
{"id": "C37", "title": "Inserted rows land in the right columns", "statement": "An insert of typed rows sends, for each non-empty batch, a block with one row per input row in which the value a row gives for a column is in that column at that row's position, for every header column order the server announces.", "quantifier": "all headers, all batches, all row contents", "why_tests_cant": "permutations of columns times arbitrary batches", "anchors": ["klickhouse/src/client.rs: insert_native, Block::write"]}
{"id": "C38", "title": "Inserts never send values the column cannot hold", "statement": "An insert whose row contains a value not valid for its column's type, an unknown column name or a missing column fails without sending that block, and every block sent is complete and rectangular.", "quantifier": "all headers and rows", "why_tests_cant": "all positions of the offending value", "anchors": ["klickhouse/src/client.rs: insert_native"]}
{"id": "C39", "title": "Optional hello fields follow the negotiated revision", "statement": "The optional fields of the server hello are read exactly for the server revisions that send them.", "quantifier": "all server revisions and field contents", "why_tests_cant": "off-by-one at each revision threshold desynchronises the stream", "anchors": ["klickhouse/src/internal_client_in.rs: receive_packet (Hello)", "klickhouse/src/protocol.rs: DBMS_MIN_REVISION_*"]}
{"id": "C40", "title": "Server packets are decoded as the server wrote them", "statement": "Decoding a well-formed server packet (data, exception, progress, pong, end of stream, profile info, totals, extremes, table columns, part UUIDs, table status) returns the fields the server wrote and leaves the stream exactly at the next packet; an unknown packet id is refused.", "quantifier": "all packets and revisions, arbitrary following bytes", "why_tests_cant": "unbounded packet contents; desynchronisation only shows on the following packet", "anchors": ["klickhouse/src/internal_client_in.rs: receive_packet, read_exception", "klickhouse/src/protocol.rs: ServerPacketId::from_u64"]}
{"id": "C41", "title": "Query packets are laid out as the server expects", "statement": "The query packet the client writes is parsed by a revision-aware server reader into the same query id, client information, settings, secret, stage, compression flag and text, for every negotiated revision.", "quantifier": "all queries, client infos and revisions", "why_tests_cant": "every combination of revision-gated fields", "anchors": ["klickhouse/src/internal_client_out.rs: send_query, ClientInfo::write"]}
{"id": "C42", "title": "Compressed blocks round-trip", "statement": "Data compressed into a frame is read back identically, given that the compressor and decompressor are inverse and the checksum function is deterministic.", "quantifier": "all payloads, all following bytes", "why_tests_cant": "unbounded payloads", "anchors": ["klickhouse/src/compression.rs: compress_data/decompress_data, DecompressionReader", "klickhouse/src/internal_client_out.rs: send_data"]}
{"id": "C43", "title": "Corrupted compressed frames are refused", "statement": "A frame is accepted only if its checksum equals the checksum of its header and body, its method byte is the supported one and its size is within bounds; any other frame gives an error, never data and never an out-of-bounds size.", "quantifier": "all byte streams", "why_tests_cant": "all corruptions", "anchors": ["klickhouse/src/compression.rs: read_compressed_blob / DecompressionReader"]}
{"id": "C44", "title": "Chunked decompression is seamless", "statement": "Reading decompressed data in pieces of any sizes across any number of frames yields exactly the concatenation of the frames' contents.", "quantifier": "all sequences of frames and all sequences of read sizes", "why_tests_cant": "combinatorial in frame boundaries versus read sizes", "anchors": ["klickhouse/src/compression.rs: DecompressionReader::poll_read"]}
{"id": "C45", "title": "Standard types round-trip through column values", "statement": "Converting a Rust integer, float, bool, string, option, vector, array, tuple, map or nested combination to a column value and back gives the same Rust value.", "quantifier": "all values of all such types, nested without bound", "why_tests_cant": "recursive combination of conversions", "anchors": ["klickhouse/src/convert/std_serialize.rs", "klickhouse/src/convert/std_deserialize.rs"]}
{"id": "C46", "title": "Out-of-range and mismatched reads fail instead of truncating", "statement": "Reading a column value as a Rust type other than the matching one returns an unexpected-type error, and never silently truncates a number.", "quantifier": "all values, all requested types", "why_tests_cant": "quadratic matrix of types with full numeric domains", "anchors": ["klickhouse/src/convert/std_deserialize.rs"]}
{"id": "C47", "title": "Calendar dates round-trip or are refused", "statement": "Every calendar date in ClickHouse's Date range converts to a Date and back unchanged, and a date outside the range is refused rather than turned into a different date.", "quantifier": "all calendar dates", "why_tests_cant": "range is hundreds of thousands of days beyond the tested ones", "anchors": ["klickhouse/src/values/date.rs: Date conversions"]}
{"id": "C48", "title": "Timestamps round-trip or are refused", "statement": "A DateTime or DateTime64 converted from an instant denotes that instant up to its precision, converting back gives the instant truncated to that precision, and instants outside the representable range are refused.", "quantifier": "all instants, all precisions, negative times included", "why_tests_cant": "sub-second arithmetic near zero and negative times for each precision", "anchors": ["klickhouse/src/values/date.rs: DateTime, DateTime64 conversions"]}
{"id": "C49", "title": "Fixed-point numbers decompose consistently", "statement": "For every fixed-point decimal, integer part times the modulus plus fraction gives the raw value, with the fraction smaller than the modulus in magnitude.", "quantifier": "all raw values and precisions", "why_tests_cant": "all signs and precisions up to 38 digits", "anchors": ["klickhouse/src/values/fixed_point.rs"]}
{"id": "C50", "title": "256-bit integers convert losslessly", "statement": "A 256-bit integer converts to its two 128-bit halves and back unchanged, and its hexadecimal text denotes the same number.", "quantifier": "all 2^256 values", "why_tests_cant": "2^256 values", "anchors": ["klickhouse/src/values/int256.rs"]}
{"id": "C51", "title": "Decimals convert to the column's scale without changing value", "statement": "A decimal number converted to a decimal column of sufficient scale denotes the same rational number, and reading it back gives an equal number; out-of-range values are refused.", "quantifier": "all mantissas, scales and column types", "why_tests_cant": "all mantissa/scale pairs", "anchors": ["klickhouse/src/values/decimal.rs"]}
{"id": "C52", "title": "UUID and IP values keep their octets", "statement": "UUIDs and IPv4/IPv6 addresses survive conversion to a column value, the wire and back with every octet in place.", "quantifier": "all 2^128 values", "why_tests_cant": "2^128 values", "anchors": ["klickhouse/src/values/ip.rs", "klickhouse/src/types/serialize/sized.rs"]}
{"id": "C53", "title": "Raw rows hand out each cell at most once and only in range", "statement": "Fetching from a raw row by index or name returns that cell's value the first time, an error on a second fetch, and an error for an index or name that does not exist; other cells are unaffected.", "quantifier": "all rows and all sequences of fetches", "why_tests_cant": "histories of fetches", "anchors": ["klickhouse/src/convert/raw_row.rs"]}
{"id": "C54", "title": "Derived rows round-trip by name and by position", "statement": "A derived struct written to a block's columns and read back, with columns in any order, gives an equal struct; unknown columns are refused or ignored as declared, duplicates are refused, and missing columns are refused unless a default is declared.", "quantifier": "all field layouts (renames, skips, nesting, flattening), all column permutations, all field values", "why_tests_cant": "permutations and layouts", "anchors": ["klickhouse_derive/src/row.rs"]}
{"id": "C55", "title": "Field renaming follows the declared case rule", "statement": "The declared rename rule maps each snake_case field name to the documented case, and distinct field names stay distinct under rules that are injective.", "quantifier": "all identifiers, all rules", "why_tests_cant": "infinite identifiers", "anchors": ["klickhouse_derive/src/case.rs"]}
{"id": "C56", "title": "Errors name the column they came from", "statement": "Annotating an error with a column name turns a conversion or unexpected-type error into one naming that column with the same message or type, leaves every other error unchanged, and a later (outer) annotation never overwrites the column named first.", "quantifier": "all errors and names", "why_tests_cant": "nested annotations", "anchors": ["klickhouse/src/errors.rs: with_column_name"]}
{"id": "C57", "title": "Progress accumulates order-independently", "statement": "Summing progress packets gives the same totals in any order and grouping.", "quantifier": "all sequences of progress packets", "why_tests_cant": "all orders", "anchors": ["klickhouse/src/progress.rs"]}
{"id": "C58", "title": "The lock is held by at most one client", "statement": "With the server creating a table atomically, at most one client holds a given lock at any time, and a released lock can be acquired again.", "quantifier": "all interleavings of any number of clients trying, acquiring, dropping and resetting", "why_tests_cant": "schedules of several clients and server replies", "anchors": ["klickhouse/src/lock.rs"]}
{"id": "C59", "title": "Migration scripts run completely, in order, under the lock", "statement": "Executing a batch of migration scripts runs every statement of every script exactly once and in order while holding the migration lock, reports the number of scripts, stops at the first failing statement with its error without running any later one, and releases the lock afterwards in either case.", "quantifier": "all batches of scripts, all positions of failure, all contention histories for the lock", "why_tests_cant": "crash/failure points at every statement", "anchors": ["klickhouse/src/migrate.rs: AsyncTransaction::execute (Client, ClusterMigration)"]}
{"id": "C60", "title": "BFloat16 values survive, or are refused cleanly when the feature is off", "statement": "With the bfloat16 feature every 16-bit pattern survives conversion and the wire unchanged; without it, the type name and the type are refused with an error and no value of it can be written or read.", "quantifier": "all 2^16 bit patterns, both feature settings, all nesting depths", "why_tests_cant": "feature-gated code paths are compiled separately; nesting unbounded", "anchors": ["klickhouse/src/values/bfloat16.rs", "klickhouse/src/types/mod.rs: validate, FromStr"]}
{"id": "C61", "title": "Geometric values keep every coordinate in place", "statement": "Points, rings, polygons and multipolygons survive conversion to column values, the wire and back with all coordinates, rings and their order intact.", "quantifier": "all shapes", "why_tests_cant": "three levels of unbounded nesting", "anchors": ["klickhouse/src/values/geo.rs", "klickhouse/src/types/serialize/geo.rs", "klickhouse/src/types/deserialize/geo.rs"]}
{"id": "C62", "title": "A cut stream is an I/O error", "statement": "A stream that ends inside a packet, block or column is reported as an I/O error and never as data; how a packet, block or column is decoded never depends on the bytes that follow it.", "quantifier": "all packets, blocks and columns of every type, all cut points, all following bytes, with and without compression", "why_tests_cant": "every cut point of unboundedly many encodings", "anchors": ["klickhouse/src/internal_client_in.rs: receive_packet", "klickhouse/src/block.rs: Block::read", "klickhouse/src/types/deserialize"]}
{"id": "C63", "title": "An insert the server rejects is reported as an error", "statement": "insert_native and insert_native_block return an error whenever the server answered the insert with an exception.", "quantifier": "all inserts, all points at which the exception arrives, all interleavings", "why_tests_cant": "depends on when the exception arrives relative to the sends, a race tests rarely hit", "anchors": ["klickhouse/src/client.rs: insert_native, receive_packet"]}
{"id": "C64", "title": "Loss of the connection is reported to every caller", "statement": "When the connection ends before a query has been answered to its end, the caller of that query observes an error and not a normal end of its results; callers whose query or block was not sent observe an error.", "quantifier": "all interleavings and all points at which the connection ends", "why_tests_cant": "crash points and interleavings", "anchors": ["klickhouse/src/client.rs: run, run_inner, query_raw, send_data, query_collect"]}
{"id": "C65", "title": "A caller that does not read does not hold up the others", "statement": "A caller that keeps its result stream but does not read it does not prevent other callers' queries on the same connection from being sent.", "quantifier": "all interleavings and response lengths", "why_tests_cant": "needs arbitrary numbers of unread blocks and schedules", "anchors": ["klickhouse/src/client.rs: receive_packet (bounded channel of 32), dispatch_query"]}
{"id": "C66", "title": "Attributes of a derived row mean what they say", "statement": "A struct with named fields whose attributes are well formed compiles exactly when every attribute on it and on its fields is one of the documented ones, nothing is said twice and from and try_from are not both given; the row implementation then has exactly the names, defaults, skips, flattening, nesting, conversion functions and bounds the attributes state, with rename_all applied to the fields without an explicit name. Anything that is not a struct with named fields is refused.", "quantifier": "all structs, all lists of attributes on the struct and its fields", "why_tests_cant": "unboundedly many combinations and orders of attributes; a silently ignored attribute changes the stored data", "anchors": ["klickhouse_derive/src/attr.rs: Container::from_ast, Field::from_ast, Attr::set, get_klickhouse_meta_items, parse_lit_into_where", "klickhouse_derive/src/ast.rs: Container::from_ast", "klickhouse_derive/src/check.rs: check", "klickhouse_derive/src/ctxt.rs: check"]}
{"id": "C67", "title": "Equality of values is an equivalence that hashing respects", "statement": "Comparing dynamic values with == is reflexive, symmetric and transitive, and equal values feed the same words to any hasher, so values can be keys of hash maps and sets; values of different kinds are never equal and floats are compared by their bits.", "quantifier": "all values, nested to any depth", "why_tests_cant": "ranges over all values; failures need special floats inside nested values", "anchors": ["klickhouse/src/values/mod.rs: impl PartialEq for Value, impl Hash for Value, impl Eq for Value", "klickhouse/src/values/geo.rs: Point, impl Hash for Point"]}
{"id": "C68", "title": "Applied migrations are read as the server returned them", "statement": "A row of the migration table with exactly the columns version, name, applied_on and checksum, in any order and with readable values, is read as the migration with those values; a row with a missing, repeated or unknown column or an unreadable value is refused with an error, never with a panic.", "quantifier": "all rows, in any column order", "why_tests_cant": "ranges over all rows the server may send, including ones written by other tools", "anchors": ["klickhouse/src/migrate.rs: impl Row for Migration (deserialize_row)"]}
{"id": "C69", "title": "What the server reads on a connection is what was submitted", "statement": "On every connection, with or without compression, a server of any revision that reads the client's bytes by the revision both sides speak reads first the hello with the user's options and then exactly the packets the client sent, in order: each query with its own text and identifier, each inserted block with its own data, no byte left over while the connection lives and at most the beginning of one submitted packet when it ended. Before the server's hello nothing but the client's hello is sent, and the query texts read are a beginning of the texts submitted, in order of submission.", "quantifier": "all histories of a connection (any interleaving of callers, task and server, any loss of the transport at any byte), all server revisions, query texts and blocks", "why_tests_cant": "ranges over all schedules, revisions and contents; a framing error shows only in what follows", "anchors": ["klickhouse/src/client.rs: InnerClient::run_inner, dispatch_query, handle_request", "klickhouse/src/internal_client_out.rs: send_hello, send_query, send_data"]}
{"id": "C70", "title": "A client is handed out only for a connection the server accepted", "statement": "connect returns a client only if the server answered the hello with a hello and answered the initial SET query to its end without an exception; the first query a server sees on a connection is that SET; a server that refuses the connection makes connect fail with the server's reason; is_closed (and a pool's has_broken) is true exactly when the connection task has ended; a pool's is_valid succeeds only if the server returned a row.", "quantifier": "all histories of a connection from its first byte, all answers of the server", "why_tests_cant": "ranges over all answers and all points at which the connection may be lost", "anchors": ["klickhouse/src/client.rs: Client::start, connect_stream, execute, is_closed", "klickhouse/src/manager.rs: ConnectionManager::connect, is_valid, has_broken"]}
{"id": "C71", "title": "Rows inserted and selected again are the same rows", "statement": "For every row type whose values survive their own conversion and are valid and in normal form for the table's columns, and every division of the rows into batches, insert_native succeeds when the server acknowledges the blocks; and when the server later answers a query with the rows it received, in the same order but cut into blocks in any way and with the columns in any order, query_collect returns exactly the rows inserted: none lost, none twice, none changed, in order.", "quantifier": "all row types with faithful conversions (every derived struct among them), all rows, batches, column orders, divisions into blocks and protocol revisions", "why_tests_cant": "an end-to-end statement over all types, values, batchings and layouts of the answer", "anchors": ["klickhouse/src/client.rs: insert_native, query, query_collect", "klickhouse/src/block.rs: Block::write, Block::read, take_iter_rows", "klickhouse_derive/src/row.rs: derive(Row)"]}
{"id": "C72", "title": "Wrapper types sort as the numbers they denote", "statement": "Comparing two u256, Ipv4, Ipv6, Date or fixed-point values gives the order of the numbers (addresses, days) they stand for, and compares equal exactly when they are equal; likewise for i256 and 256-bit fixed-point values.", "quantifier": "all pairs of values", "why_tests_cant": "ranges over all pairs of 256-bit values; sorting, BTreeMap keys and range queries on the client rely on it", "anchors": ["klickhouse/src/values/int256.rs: derive(Ord) for i256, u256", "klickhouse/src/values/ip.rs: Ipv4, Ipv6", "klickhouse/src/values/date.rs: Date", "klickhouse/src/values/fixed_point.rs: FixedPoint32..256"]}
{"id": "C73", "title": "Dates and times survive serde", "statement": "A Date, DateTime, DateTime64 or DynDateTime64 written with serde and read again is the same value; texts that are no time or that the type cannot hold are refused.", "quantifier": "all values, zones and precisions, all texts", "why_tests_cant": "ranges over all instants, zones and precisions", "anchors": ["klickhouse/src/values/date.rs: Serialize and Deserialize for Date, DateTime, DateTime64, DynDateTime64"]}
{"id": "C74", "title": "The server gets exactly the blocks of an insert", "statement": "insert_native_raw hands the caller's blocks to the server unchanged and in order and then tells it that the data is complete; it succeeds only if all of that was sent, and when it fails the server got a beginning of them. insert_native and insert_native_block give the server one block per batch that has rows, none of them empty, and end the data once.", "quantifier": "all streams of blocks and batches, all points of failure", "why_tests_cant": "ranges over all streams and failure points; an end marker inside the data silently cuts an insert short", "anchors": ["klickhouse/src/client.rs: insert_native_raw, insert_native, insert_native_block"]}
{"id": "C75", "title": "Single-value rows can be written and read", "statement": "Rows of type UnitValue<T> can be inserted into a table with one column and read from a result with one column, whatever the column is called.", "quantifier": "all value types, values, column names and batches", "why_tests_cant": "ranges over all types and tables", "anchors": ["klickhouse/src/convert/unit_value.rs: Row for UnitValue"]}
{"id": "C76", "title": "Json values survive in text columns", "statement": "A column of Json<T> values, each of which serde_json reads as it wrote it, written to a String column and read again is the same column; bytes that are no text, texts that are no JSON of the type and columns that hold no text give an error and never a panic.", "quantifier": "all types with serde implementations, all values and column contents", "why_tests_cant": "ranges over all types and values", "anchors": ["klickhouse/src/convert/json.rs: ToSql and FromSql for Json"]}
{"id": "C77", "title": "A raw row gives back what was set in it", "statement": "A value set in a raw row under a name, with the column type inferred or given, is fetched under that name, as the same Rust type, as the value that was set.", "quantifier": "all Rust types with conversions, all values, rows and names", "why_tests_cant": "ranges over all types and values; the inferred type depends on the first element of every list", "anchors": ["klickhouse/src/values/mod.rs: Value::guess_type", "klickhouse/src/convert/raw_row.rs: try_set, try_set_typed, try_get"]}
{"id": "C78", "title": "A derived implementation asks of the type parameters what it needs", "statement": "The where clause derive(Row) writes for a generic struct keeps every predicate of the user and adds FromSql + ToSql exactly for the type parameters the serialized fields use, so that every conversion the generated code calls is covered by it: for every set of implementations with those of vectors, options, boxes, arrays and tuples in which the clause holds, the type of every field that is converted has the conversions.", "quantifier": "all generic structs, field types of any depth, attributes, and sets of implementations", "why_tests_cant": "ranges over all field types and over all crates that may implement the traits; a test compiles one struct", "anchors": ["klickhouse_derive/src/bound.rs: with_bound, with_where_predicates", "klickhouse_derive/src/row.rs: build_generics, needs_serialize_bound"]}
{"id": "C79", "title": "Self in a field's type means the struct", "statement": "A field whose type mentions Self, at any depth, is converted as the type that was written, and so are the bounds and the where clause of the struct: every Self is replaced by the struct and Self::A by <Struct>::A, no Self is left in the generated code, and types without Self are used as they are.", "quantifier": "all structs with any parameters, bounds and where clauses, and field types of any depth, with expressions in array lengths", "why_tests_cant": "ranges over all types", "anchors": ["klickhouse_derive/src/receiver.rs: replace_receiver, visit_type_mut, self_to_qself"]}
{"id": "C80", "title": "What a caller reads is what the server wrote for its query", "statement": "If the bytes the server writes decode to a sequence of packets, then the caller of the n-th query submitted reads exactly the blocks and the exception of the n-th response in that sequence, however the bytes are cut, whenever the task runs, and whatever the other callers do: at any time a beginning of it, and all of it when the stream ends on a live connection.", "quantifier": "all byte streams of a server, all ways they are cut into reads, all interleavings of polls, requests, reads and drops of any number of callers", "why_tests_cant": "ranges over all interleavings of byte arrivals with caller activity; the loss needs a request taken in the middle of a packet", "anchors": ["klickhouse/src/client.rs: run_inner, handle_request, receive_packet, dispatch_query", "klickhouse/src/internal_client_in.rs: receive_packet"]}
{"id": "C81", "title": "Nested fields are lists of rows", "statement": "Deriving a row type accepts exactly those nested fields that are declared as `Vec<T>` (where the struct itself writes or reads them) under a name that can be part of an identifier; the rows of an accepted nested field are `T`s, the same for counting, naming, writing and reading columns.", "quantifier": "all structs, field types (any syntax tree), field attributes and struct attributes", "why_tests_cant": "ranges over all type expressions and combinations of attributes", "anchors": ["klickhouse_derive/src/row.rs: unwrap_vec_type, serialize_length_body, column_names_body, serialize_struct_visitor, deserialize_map"]}
{"id": "C82", "title": "Every query is answered", "statement": "On a connection that stays up, if every caller with something to read reads it or leaves, the executor does not starve the connection task, and the server ends every query it is executing, then every submitted query is eventually sent and answered to its end, its caller leaves or eventually reads everything received for it up to the end of its stream, and every block an insert hands over is eventually sent and acknowledged.", "quantifier": "all unbounded executions of the connection, any number of callers, queries, inserts and packets, any interleaving allowed by the fairness assumptions", "why_tests_cant": "a liveness property of unbounded executions: no finite test shows that something eventually happens under every fair schedule", "anchors": ["klickhouse/src/client.rs: run_inner, handle_request, receive_packet, dispatch_query, query_raw, send_data"]}
{"id": "C83", "title": "Whoever waits for a lock obtains it", "statement": "A call of `lock` on a lock that is released again and again, whose requests are answered and whose sleeps end, eventually returns holding the lock; at the least, it does so if from some time on nobody else takes the lock, and it never returns an error or gives up while the server keeps answering.", "quantifier": "all unbounded schedules of any number of tasks of any number of clients against one server, all locks", "why_tests_cant": "a liveness property of unbounded schedules of competing clients", "anchors": ["klickhouse/src/lock.rs: ClickhouseLock::lock, try_lock, reset"]}
{"id": "C84", "title": "Cluster migrations name their cluster and database", "statement": "In a script run for a cluster, and in the queries about its history, each %CLUSTER% and %DATABASE% is replaced by the name of the cluster or database and nothing else is changed; the history table is created on the named cluster and distributed over the named database; a single client's scripts are run as they are.", "quantifier": "all scripts, cluster, database and table names", "why_tests_cant": "ranges over all texts and names; the failures need names or texts that overlap with placeholders", "anchors": ["klickhouse/src/migrate.rs: ClusterMigration::execute, query, assert_migrations_table_query"]}
{"id": "C85", "title": "Result streams and closed clients", "statement": "A result stream keeps delivering after the handle it was obtained from, and every other handle, is dropped: it ends only when its query has been answered to the end, or with an error. While a handle exists the connection is closed only through the fault of the transport or the server; a call in progress keeps its handle; a closed client stays closed, takes no more work and leaves nobody waiting.", "quantifier": "all histories of cloning and dropping handles, submitting, reading, packets and faults", "why_tests_cant": "ranges over all interleavings of callers, handles, task and server", "anchors": ["klickhouse/src/client.rs: Client, run_inner, query_raw, query, is_closed", "klickhouse/src/manager.rs: has_broken"]}
{"id": "C86", "title": "LowCardinality columns are read in every layout a server may choose", "statement": "A LowCardinality column that a server sends in any number of granules, each naming its values by its own keys, by a dictionary shared between granules (sent when first needed, kept for later granules, replaced when that is announced), or by both (the indices count through the shared dictionary first), with the first entry standing for NULL in a nullable column and indices of 1, 2, 4 or 8 bytes, is read as exactly the values the indices name, and the bytes behind the column are left for the next one.", "quantifier": "all element types LowCardinality allows, all sequences of granules, dictionaries, index widths and indices, whatever follows in the stream", "why_tests_cant": "unboundedly many granules and dictionaries; servers send a single granule over this protocol, so tests against one never see the others", "anchors": ["klickhouse/src/types/deserialize/low_cardinality.rs: LowCardinalityDeserializer::read"]}
{"id": "C87", "title": "Progress reports reach every subscriber", "statement": "A subscriber of progress gets every report the connection makes from its subscription on, once, in order and under the query it belongs to; when it is so slow that reports had to be dropped it is told how many, and it never loses any of the latest 100; who subscribed before a query was sent and missed nothing has got exactly the progress the server reported for it. Once it has got everything and the connection has ended, it is told so.", "quantifier": "all histories of subscribing, unsubscribing, receiving, cloning and dropping handles, queries, packets and faults; any number of subscribers", "why_tests_cant": "ranges over all interleavings of the connection task, its callers and any number of subscribers at different speeds", "anchors": ["klickhouse/src/client.rs: subscribe_progress, receive_packet, start, PROGRESS_CAPACITY"]}
{"id": "C88", "title": "Fixed-point numbers as floats", "statement": "Converting a FixedPoint32, FixedPoint64 or FixedPoint128 of a scale ClickHouse allows to f64 never fails, keeps the order of numbers and their sign (opposite numbers become opposite floats, zero stays zero), gives whole numbers up to 2^53 exactly, and gives the float nearest to the number otherwise.", "quantifier": "all raw values of the three widths, all scales ClickHouse allows for them", "why_tests_cant": "2^32, 2^64 and 2^128 raw values at up to 39 scales; order is a property of pairs of values, and the rounding of two conversions, a division and an addition accumulates differently for each", "anchors": ["klickhouse/src/values/fixed_point.rs: From<FixedPoint32> for f64, From<FixedPoint64> for f64, From<FixedPoint128> for f64"]}
{"id": "C89", "title": "What is decoded is in proportion to what was received", "statement": "The values decoded from a column or a block, counting values inside values and the bytes of strings, are at most a constant times the number of bytes taken from the wire for them; so what a server can make the client hold is bounded by what it sends.", "quantifier": "all byte strings a server can send, all column types, all row and column counts they announce, all nestings", "why_tests_cant": "a bound over every input; the inputs that break it are a few bytes long and no ordinary server sends them", "anchors": ["klickhouse/src/types/mod.rs: Type::deserialize_column", "klickhouse/src/types/deserialize/*.rs", "klickhouse/src/block.rs: Block::read"]}
{"id": "C90", "title": "The derive macro complains about every mistake", "statement": "When attributes of a struct with named fields or of its fields contain mistakes, the derive reports each of them and nothing else, in the order of the source: arguments that cannot be parsed, an unknown word or one used in the wrong form, a value that is not a string, a text that is not a path, predicate list, type or rename rule, a thing said before (naming it), and from together with try_from. A struct that compiles contains none of these.", "quantifier": "all structs with named fields, all lists of attributes on them and their fields, with any number of mistakes in any order", "why_tests_cant": "mistakes combine: what is a repetition depends on everything said before on the same struct or field, and a missed mistake shows only as silence", "anchors": ["klickhouse_derive/src/attr.rs: Container::from_ast, Field::from_ast, Attr::set", "klickhouse_derive/src/ast.rs: Container::from_ast", "klickhouse_derive/src/check.rs", "klickhouse_derive/src/ctxt.rs"]}
{"id": "C91", "title": "A conversion that fails says why", "statement": "Reading a column value as a Rust type succeeds exactly when the value is as the type wants it on every level of nesting (type, text encoding, array length, tuple size); otherwise the error is that of the first part, in the order of reading, which is not, and names that part's column type or the two lengths.", "quantifier": "all Rust types and column types nested without bound, all values a column can hold, all bytes a server can send", "why_tests_cant": "types nest without bound and a value may contain any number of parts that are wrong in different ways; which one is reported depends on everything before it", "anchors": ["klickhouse/src/convert/std_deserialize.rs: FromSql::from_sql", "klickhouse/src/convert/vec_tuple.rs: VecTuple::from_sql", "klickhouse/src/values/bytes.rs: Bytes::from_sql", "klickhouse/src/convert/mod.rs: unexpected_type"]}
{"id": "C92", "title": "Type names are read as the server means them", "statement": "Every name ClickHouse may write for a type the client has (with blanks after commas and around equals signs, Decimal(P, S), Bool, DateTime and DateTime64 with or without a zone, tuples with or without member names, any enum names with their escapes) is read as that type, and a block column whose header carries such a name is read as a column of that type.", "quantifier": "all types nested without bound, all ways of writing them, all white space", "why_tests_cant": "names nest without bound and white space may stand anywhere between their parts", "anchors": ["klickhouse/src/types/mod.rs: FromStr for Type, eat_identifier, parse_args, parse_enum_variant", "klickhouse/src/block.rs: Block::read"]}
{"id": "C93", "title": "The nesting of types is bounded", "statement": "A type name a server sends is nested at most as deeply as some fixed bound, so that reading it, and the functions that recurse on the type, need a bounded stack.", "quantifier": "all type names, all builds", "why_tests_cant": "a bound over every input; no ordinary server sends the names that break it", "anchors": ["klickhouse/src/types/mod.rs: FromStr for Type", "klickhouse/src/block.rs: Block::read", "klickhouse/src/types/deserialize/mod.rs"]}
{"id": "C94", "title": "A batch of migrations comes to an end", "statement": "Executing a batch of migrations comes to an end (with the number of scripts run, or an error), provided its own requests are answered and its sleeps end; also when whoever held the lock of the migrations has died without releasing it. If the server has no objection to any statement and nobody else keeps taking the lock, it reports every script done.", "quantifier": "all schedules of any number of tasks and clients, all batches of scripts, all earlier histories including crashes of lock holders", "why_tests_cant": "liveness over unbounded schedules; the wait is a minute and the interleavings of competitors are unbounded", "anchors": ["klickhouse/src/migrate.rs: AsyncTransaction for Client::execute, for ClusterMigration::execute", "klickhouse/src/lock.rs: ClickhouseLock::try_lock, reset"]}
{"id": "C95", "title": "What is accepted as a type name is one", "statement": "A text is accepted as a type name only if it is the name of a type, and only as that type: a known word followed by the right number of arguments, each itself the name of a type, a number that fits, a quoted time zone that exists or an enum item; nothing is left over and nothing is ignored.", "quantifier": "all texts, all builds, all time-zone databases", "why_tests_cant": "it is about every text, including the ones nobody thought of sending; names nest without bound", "anchors": ["klickhouse/src/types/mod.rs: FromStr for Type, eat_identifier, parse_args, parse_scale, parse_precision, parse_enum_variant"]}
{"id": "C96", "title": "The text of an error says what happened", "statement": "The text of an error tells which kind of error it is and, for a server exception, its code, name, message and stack trace; a cloned error reads like the original; and an attempt at a lock reports the lock as taken only when it is.", "quantifier": "all errors with all the texts they can carry, all states of the lock service and all answers", "why_tests_cant": "errors carry texts chosen by the server, by users and by the operating system; the lock decides by searching in them", "anchors": ["klickhouse/src/errors.rs: KlickhouseError, Clone, with_column_name", "klickhouse/src/lock.rs: try_lock, lock", "klickhouse/src/migrate.rs: execute"]}
{"id": "C97", "title": "Every caller gets its whole answer from the bytes", "statement": "On a connection whose server answers every query it is sent, in order, and whose transport brings all bytes in any portions and at any pace, every caller that stays eventually reads exactly the blocks and the exception written in answer to its query and reaches the end of its stream, and the connection never breaks down.", "quantifier": "all unbounded executions of the connection task over bytes; all answers, all cuttings of the byte stream, all schedules of task, callers and transport", "why_tests_cant": "an answer can be cut at any byte and any request can be taken between any two of them; that something eventually happens is not seen in a finite run", "anchors": ["klickhouse/src/client.rs: run_inner, receive_packet", "klickhouse/src/internal_client_in.rs: receive_packet", "klickhouse/src/io.rs: ClickhouseRead"]}
{"id": "C98", "title": "Each condition of a SELECT builder is one operand", "statement": "In the statement a SELECT builder builds, ClickHouse reads every fragment where the caller put it: each condition given to where_, prewhere or having, whatever it contains (an OR, a comment, parentheses, quotes), is one operand of AND, and no fragment changes how the rest of the statement is read.", "quantifier": "all builder call sequences, all fragments of any length and nesting", "why_tests_cant": "fragments are arbitrary SQL texts; one with a comment or a stray parenthesis changes the meaning of every other", "anchors": ["klickhouse/src/query/select.rs: SelectBuilder, TryInto<ParsedQuery>"]}
{"id": "C99", "title": "An argument cannot change the rest of the query", "statement": "Whatever value is passed for a placeholder, the query sent is read by ClickHouse as the template is, with the value as one operand in the placeholder's place: it closes no parenthesis, opens no comment, ends no literal and joins no neighbouring word.", "quantifier": "all templates, all tokenizers following the declared patterns, all argument values of any nesting", "why_tests_cant": "it is about every value in every place of every template; the dangerous pairs are not the ones one thinks of", "anchors": ["klickhouse/src/query_parser.rs: parse_query_arguments", "klickhouse/src/query/mod.rs: QueryBuilder", "klickhouse/src/values/mod.rs: Display for Value, escape_string"]}
{"id": "C100", "title": "Names in the generated code mean what they should", "statement": "Whenever derive(Row) accepts a struct, every name in the code it generates means what it is meant to: types are written only where the struct's parameters and Self are known and where the grammar takes them, the temporary variables of different fields are not confused with each other, the functions given in attributes are not taken for local variables, and every error variant exists.", "quantifier": "all structs with any parameters, fields of any type, and all container and field attributes", "why_tests_cant": "ranges over all structs, types and attributes; a test compiles one struct at a time", "anchors": ["klickhouse_derive/src/row.rs: expand_derive_serialize, serialize_length_body, column_names_body, serialize_struct_visitor, deserialize_map, expr_is_missing", "klickhouse_derive/src/receiver.rs: replace_receiver", "klickhouse/src/errors.rs: KlickhouseError"]}
{"id": "C101", "title": "What waits in a client is bounded", "statement": "However callers, server and connection interleave, a client keeps a bounded amount waiting: at most 33 results received for a query and not yet read by its caller, at most 1024 blocks of inserts handed over and not yet written, at most 1024 queries handed over and not yet sent; a caller with more to hand over, or a server with more to say, waits.", "quantifier": "all interleavings of any number of callers and packets, all lengths of responses and inserts", "why_tests_cant": "a test sees one interleaving; the bound must hold after every history of any length, and its failure for queries needs histories longer than any fixed number", "anchors": ["klickhouse/src/client.rs: InnerClient::run, handle_request, receive_packet, Client::start"]}
{"id": "C102", "title": "A success means what it says, as long as the client is open", "statement": "If execute, query_collect, query_opt or query_one returns a success and the client is seen to be open at any later time, the success was no illusion: the server had answered the query to its end and without an exception (execute, query_collect), query_collect returned all the rows the server sent for this query, in order, query_opt's None means a complete answer without rows, and a row of query_opt or query_one is the first one the server sent. execute_now's success means the query was sent. A failure of one of them is the server's exception for this very query, the failed conversion of one of its rows, the absence of rows (query_one), or the end of the connection.", "quantifier": "all histories of a connection, with any number of other callers, and all later histories up to the check", "why_tests_cant": "a broken connection ends a stream the way a complete answer does, so whether a success can be an illusion depends on the interleaving of the breakage with everything else", "anchors": ["klickhouse/src/client.rs: Client::execute, query_collect, query_opt, query_one, execute_now, is_closed"]}
{"id": "C103", "title": "A value of the matching Rust type can be stored in the column", "statement": "A value of a Rust type that goes with a column's type (nested in vectors, options, arrays, tuples, maps and LowCardinality to any depth) is converted for an insert without an error, passes the check made before sending, is written, and is read back equal; a struct of such fields can be inserted and selected again. A chrono time and a Decimal are taken by the columns that can hold them.", "quantifier": "all Rust types built from the supported ones, all column types that go with them, all values, all batches of rows", "why_tests_cant": "the conversion, the check before sending and the writer are three separate recursions over type and value that must agree at every depth of an unbounded family of types", "anchors": ["klickhouse/src/convert/std_serialize.rs: ToSql impls", "klickhouse/src/types/mod.rs: Type::validate_value, Type::inner_validate_value", "klickhouse/src/block.rs: Block::write", "klickhouse/src/client.rs: Client::insert_native", "klickhouse/src/values/date.rs: ToSql for chrono::DateTime", "klickhouse/src/values/decimal.rs: ToSql for Decimal"]}
{"id": "C104", "title": "Containers store what their parts store", "statement": "If the values of user types (with their own ToSql and FromSql, or chrono times, Decimal, Json) inside a Vec, array, Option, Box, VecTuple, tuple or map, nested to any depth, are each stored by the column type of their place, then the whole is converted without an error when the column's type is given, passes the check made before sending, is written, and is read back as the same container with each user value changed at most as its own conversion changes it. In particular times keep their microseconds, decimals their number, and Json values what serde_json keeps. Rows of structs with such fields, inserted in any batches and selected again, come back one for one in order, likewise.", "quantifier": "all user types, all containers of them of any depth, all matching column types, all values", "why_tests_cant": "user types are unknown to the library's tests, and the nesting is unbounded", "anchors": ["klickhouse/src/convert/std_serialize.rs: ToSql impls of containers", "klickhouse/src/convert/std_deserialize.rs: FromSql impls of containers", "klickhouse/src/convert/vec_tuple.rs", "klickhouse/src/convert/json.rs", "klickhouse/src/values/date.rs", "klickhouse/src/values/decimal.rs"]}
{"id": "C105", "title": "A container fails as the first of its parts that fails", "statement": "Writing a Vec, array, Option, Box, VecTuple, tuple or map asks the user types inside, at any depth, in the order of the value, once for every value of theirs, telling each the type of its part of the column; the whole succeeds exactly when all of them do and otherwise ends as the first that does not, with that very error or panic, and with nothing else. Reading is the same: the whole is read exactly when every part is, and otherwise ends as the first thing, in the order of the value, that fails: a user type's error or panic, an ordinary part's error (C91), or the container's own complaint that the value is of another type or length. A row of a struct with such fields is written field after field and read column after column in the order in which the columns come, each into the field of its name or else of its place (a column beyond the fields is passed over), and fails likewise, when reading with the name of the field in the error; a second column for a field is an error, and if no column fails, the first field without a column is.", "quantifier": "all user types with any conversions, failing or panicking as they like, all containers of them of any depth, all values, all hints and column types, all bytes a server can send", "why_tests_cant": "user types are unknown to the library's tests; the nesting and the place of the failure are unbounded", "anchors": ["klickhouse/src/convert/std_serialize.rs: ToSql impls of containers", "klickhouse/src/convert/std_deserialize.rs: FromSql impls of containers", "klickhouse/src/convert/vec_tuple.rs", "klickhouse_derive/src/row.rs: serialize_row, deserialize_map"]}
{"id": "C106", "title": "What one struct inserted, another may select in part", "statement": "After rows of a struct have been inserted, in any batches, a query of some of the table's columns, answered with any of the rows in any order, cut into blocks in any way and with the columns in any order, can be collected as any other struct that declares exactly these columns, under the same types or, where the column cannot be NULL, as Option of them: one value for every row of the answer, in its order, each field of which is the value of the field of that name in the row inserted (a field read as Option is Some of it), with user types changing theirs at most as their own conversions do. The reverse is refused: a plain number is not read from a Nullable column.", "quantifier": "all pairs of structs whose fields are containers of ordinary and user types of any depth, all rows and batches, all selections, orders and repetitions of rows, all divisions into blocks and column orders", "why_tests_cant": "a test fixes one pair of structs and one answer; here the writer, the wire format and a reader generated from another declaration must agree for all of them", "anchors": ["klickhouse/src/client.rs: insert_native, query_collect", "klickhouse_derive/src/row.rs: serialize_row, deserialize_map", "klickhouse/src/convert/std_deserialize.rs: FromSql for Option<T>"]}
{"id": "C107", "title": "What a server can make the client reserve", "statement": "While reading a column or a compressed frame the client reserves memory only in proportion to the bytes it has received, whatever row counts, lengths and sizes the server announces; no single reservation exceeds the protocol's limit of 2^30.", "quantifier": "all byte strings a server can send, complete or not, all column types, all row counts and sizes they announce", "why_tests_cant": "a bound over every input, among them inputs cut off at any point; the inputs that break it are a few bytes long and no ordinary server sends them", "anchors": ["klickhouse/src/io.rs: read_string", "klickhouse/src/types/deserialize/*.rs (with_capacity, vec![_; rows])", "klickhouse/src/types/mod.rs: Type::deserialize_column", "klickhouse/src/compression.rs: read_compressed_blob, decompress_block"]}
{"id": "C108", "title": "Derived code means the same in every module", "statement": "Wherever a struct with derive(Row) is declared, the code generated for it refers to the standard library and to klickhouse, whatever the module declares or imports under the names Option, Vec, String, Some, None, Ok, vec!, std and the like, whichever traits it imports, and whatever the parameters of the struct are called.", "quantifier": "all structs with any parameters, fields and attributes, and all modules: every choice of what each unqualified name means there", "why_tests_cant": "tests compile a few structs in a few modules; the claim is about every module, and about what is not in scope in modules nobody has written", "anchors": ["klickhouse_derive/src/row.rs: expand_derive_serialize, serialize_length_body, column_names_body, serialize_struct_visitor, deserialize_map", "klickhouse_derive/src/dummy.rs: wrap_in_const"]}
{"id": "C109", "title": "Every value can be shown, and a shown time is the time", "statement": "Writing a value as text, with Display or Debug or as the argument of a query, gives a text for every value of a validated type and never panics; the text of a DateTime or DateTime64 names exactly the instant of the value, in every zone.", "quantifier": "all values, nested without bound, of all types; all templates and lists of arguments; all times, precisions and zones; builds with and without overflow checks", "why_tests_cant": "the claim is about every value a server can send or a user can build; the ones that break it are of rare types, outside the calendar, or in a zone with an offset in seconds, at any depth", "anchors": ["klickhouse/src/values/mod.rs: Display for Value, Debug for Value", "klickhouse/src/values/date.rs: FromSql for chrono::DateTime<Tz>", "klickhouse/src/query_parser.rs: parse_query_arguments"]}
{"id": "C110", "title": "Values survive serde", "statement": "A Value written with serde, in a format that carries serde's data model, and read back is the same Value: nested arrays, tuples, maps, bytes, decimals, 256-bit integers, geometric values, dates and times, whatever their zone and precision; writing one never panics.", "quantifier": "all values, nested without bound; all zones, precisions and times; whatever else could have been written", "why_tests_cant": "the claim is about every value, nested to any depth; the ones that change on the way or panic are times of certain zones, precisions and years inside otherwise ordinary values", "anchors": ["klickhouse/src/values/mod.rs: Value (derive Serialize, Deserialize)", "klickhouse/src/values/date.rs: Serialize, Deserialize for Date, DateTime, DynDateTime64", "klickhouse/src/values/geo.rs: Point, Ring, Polygon, MultiPolygon", "klickhouse/src/values/int256.rs: i256, u256"]}
