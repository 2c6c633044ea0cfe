# Design: a Lean 4 model of klickhouse

The code under study is `/repo` (crate `klickhouse` 0.15.2 and `klickhouse_derive`). It was read as
text; nothing was built or run.

## Conventions of the model

* Every function of the code becomes a total Lean function. `Result` becomes `Res` with three
  outcomes: `ok`, `err kind`, `panic`. A panic (index out of bounds, `unwrap`, `unimplemented!`,
  `assert_eq!`, arithmetic overflow in a build with overflow checks) is an explicit outcome, so
  "never panics" is a statement one can prove or refute.
* `Cfg` holds the two compile-time switches that change behaviour: overflow checks (debug/release)
  and the `bfloat16` feature. Theorems quantify over it.
* A reader is a function from the remaining bytes to an outcome carrying the value and the bytes
  left; a writer returns the bytes it emits.
* Machine integers that go on the wire are `BitVec n`; lengths and offsets are `Nat` with explicit
  bounds where the code truncates.
* External code (LZ4, CityHash, the SQL tokenizer crate, the time-zone database, chrono's calendar,
  UTF-8 validation) is a parameter; the hypotheses assumed of it are written in each statement.

## Per-property plan

* **C01 Variable-length integers round-trip** (Io): `writeVarUint`/`readVarUint` as functions on byte lists; induction on the 9-step loop. Full statement is false of the code for values >= 2^63 (writer stops after nine groups): negation with witness 2^63, `_partial` for < 2^63.
* **C02 Variable-length integer reading is total and bounded** (Io): same model; induction on fuel.
* **C03 Length-prefixed strings round-trip and oversize lengths are refused** (Io): `writeString`/`readString`; UTF-8 validity via Lean's `ByteArray.validateUTF8`-like specification over bytes (parameterised decoder).
* **C04 Fixed-width scalars have the ClickHouse wire layout** (Codec): `serSized`/`deSized` compared with an independent base-256 little-endian specification.
* **C05 FixedString(N) always occupies N bytes** (Codec): `emitFixed`, `deFixed`; list lemmas.
* **C06 Columns of every type round-trip** (Codec): mutual structural induction over types; canonical form `canon` is the specification of what is read back.
* **C07 Reading a column yields exactly the announced number of rows** (Codec): induction over types for LowCardinality-free types; counterexample stream (flags with neither dictionary bit) refutes the full claim.
* **C08 Reading a column never panics** (Codec): explicit `panic` outcome; counterexample streams (decreasing offsets) and `_partial` for array/map-free types.
* **C09 Array and map columns use cumulative end offsets** (Codec): layout theorem against a spec using prefix sums.
* **C10 LowCardinality dictionaries are duplicate-free and every index resolves** (Codec): dictionary = order-preserving dedup; spec independent of IndexSet.
* **C11 Nullable columns mask exactly the null rows** (Codec): mask theorem for writer and reader.
* **C12 Validated values always serialise** (Codec): negations (short tuple, long tuple, ragged map, Nullable(Point) NULL) and `_partial` under the missing length checks.
* **C13 Column encodings are injective** (Codec): corollary of C06.
* **C14 Blocks round-trip** (Block): `Block.read`/`Block.write` over ordered association lists; needs C06, C18.
* **C15 Block header information round-trips** (Block): negation with witness `is_overflows = false`; `_partial` for bucket number and for true.
* **C16 Ragged blocks are never completed on the wire** (Block): writer returns bytes plus outcome.
* **C17 Row iterators agree with the columns** (Block): iterators as state machines unfolded to lists.
* **C18 Type names round-trip through their text form** (TypeText): `Ty.display` to `List Char`, `Ty.parse`; mutual induction with a paren-balance invariant; negation for enum names with special characters.
* **C19 Parsing a type name never panics** (TypeText): negations (`A())(`, `Enum8('=1)`); `_partial` giving the exact panic-free class.
* **C20 Decimal(P, S) selects the right storage width** (TypeText): decision logic over all P.
* **C21 Type validation accepts exactly ClickHouse's composable types** (TypeText/Types): `Ty.validate` vs inductive specification.
* **C22 Default values belong to their type** (Types): negation (Enum8 without 0); `_partial`.
* **C23 String arguments cannot escape their literal** (Sql): `escapeString`; independent ClickHouse string-literal lexer; induction.
* **C24 Positional arguments are substituted once, in place** (Sql, Lexer): on token lists, and on texts for every tokenizer that follows the declared patterns and their order (a relation; the matching engine is an external crate), by aligning tokens with the pieces a template is written as.
* **C25 Splitting a script into statements loses nothing** (Sql, Lexer): same; the declared pattern of `/*…*/` does not say where it ends (`C25_two_comments`).
* **C26 SELECT builder renders clauses faithfully** (Sql): builder state + `build`, refinement to clause lists.
* **C27 Value literals denote the value** (Sql): `Value.display`; literal semantics as independent evaluator; negation for decimals.
* **C28 A query template with any failing argument yields an error** (Sql): fold over results.
* **C29 Queries are sent in submission order, one at a time** (Client): `step` over events; invariants over all event lists.
* **C30 Each response goes to the query it belongs to** (Client): refinement to a queue spec.
* **C31 A server exception ends exactly its own query** (Client): same.
* **C32 Progress is attributed to the executing query** (Client): same.
* **C33 Insert data reaches the server only inside its own insert** (Client): negation with a concrete event sequence; `_partial` without exceptions.
* **C34 Protocol violations close the connection** (Client): terminal state theorem.
* **C35 Submitting work never corrupts an incoming packet** (Client): byte-level select! model; negation + `_partial` for requests at packet boundaries.
* **C36 Query results are the concatenation of the blocks' rows** (Client): list functions over response sequences.
* **C37 Inserted rows land in the right columns** (Insert): transposition theorem.
* **C38 Inserts never send values the column cannot hold** (Insert): outcome theorem; counterexamples where the property is violated.
* **C39 Optional hello fields follow the negotiated revision** (Packets): boundary negation (`>` vs `>=`), `_partial`.
* **C40 Server packets are decoded as the server wrote them** (Packets): packet encoders as spec, decoder as model.
* **C41 Query packets are laid out as the server expects** (Packets): server-side reader as spec.
* **C42 Compressed blocks round-trip** (Compress): LZ4 and CityHash as parameters with stated hypotheses.
* **C43 Corrupted compressed frames are refused** (Compress): acceptance iff checks.
* **C44 Chunked decompression is seamless** (Compress): poll_read state machine.
* **C45 Standard types round-trip through column values** (Convert): typed conversion universe, induction.
* **C46 Out-of-range and mismatched reads fail instead of truncating** (Convert): decision tables by case analysis.
* **C47 Calendar dates round-trip or are refused** (Date): civil-day arithmetic; negation for wrap-around; `_partial`.
* **C48 Timestamps round-trip or are refused** (Date): integer arithmetic.
* **C49 Fixed-point numbers decompose consistently** (Numeric): Int div/mod.
* **C50 256-bit integers convert losslessly** (Numeric): BitVec/bytes.
* **C51 Decimals convert to the column's scale without changing value** (Numeric): rational equality by cross-multiplication.
* **C52 UUID and IP values keep their octets** (Numeric/Codec): bytes.
* **C53 Raw rows hand out each cell at most once and only in range** (RawRow): operation histories; negation index = length panics.
* **C54 Derived rows round-trip by name and by position** (Derive): field layouts as data.
* **C55 Field renaming follows the declared case rule** (Derive): string functions.
* **C56 Errors name the column they came from** (Misc): case analysis.
* **C57 Progress accumulates order-independently** (Misc): algebra over naturals (u64 overflow explicit).
* **C58 The lock is held by at most one client** (Lock): transition system of tasks, clients with one connection each, and a server; invariant counting tokens of tasks whose connection lives; negations for `reset()` and for an attempt during which the connection breaks (which `Client::execute` may report as success). The tables are the replay of the statements run (C58_tables).
* **C59 Migration scripts run completely, in order, under the lock** (Lock/Migrate): execution trace, invariant relating a task's place to its history; negations for the 60 s takeover and for connections that break.
* **C60 BFloat16 values survive, or are refused cleanly when the feature is off** (Types): feature flag parameter.
* **C61 Geometric values keep every coordinate in place** (Codec): instances of C06 plus conversions.
* **C62 A cut stream is an I/O error** (Truncation): every reader is prefix-stable; induction over the types and packets.
* **C63 An insert the server rejects is reported as an error** (Insert): calls against every response list; negation and `_partial`.
* **C64 Loss of the connection is reported to every caller** (Client): same event system with a failing transport.
* **C65 A caller that does not read does not hold up the others** (Steady): event system with bounded channels.
* **C66 Attributes of a derived row mean what they say** (Attr): parsed meta items to containers and fields, against a table of attributes.
* **C67 Equality of values is an equivalence that hashing respects** (ValueHash): structural induction; words fed to the hasher. The converse: the words are a prefix code for values (C67_hash_tells, induction over the value).
* **C68 Applied migrations are read as the server returned them** (Migration): loop over the cells, permutations of columns.
* **C69 What the server reads on a connection is what was submitted** (Session): the hello exchange in front of the
  connection task, bytes for each write; a server reader for the whole stream; invariant over histories.
* **C70 A client is handed out only for a connection the server accepted** (Session): outcome of `connect`, `execute`,
  `query_one` as functions of the history. False for a connection lost after the SET was sent, and the server's reason
  is replaced by a protocol error.
* **C71 Rows inserted and selected again are the same rows** (Storage): composition of the models of `insert_native`, the block
  codec, `query` and derived rows (C37, C14, C36, C54). The server is any relation that returns the rows it received, re-cut and with
  columns permuted (`Spec.SameRows`); proof by induction over the batches, then by rows.
* **C72 Wrapper types sort as the numbers they denote** (Order): derived lexicographic order against `compare` on numbers, by induction over
  the bytes. False for `i256` and 256-bit fixed-point values (unsigned bytes): negation and `_partial`.
* **C73 Dates and times survive serde** (Serde): chrono's RFC 3339 writer and parser as parameters with a law; false for the zone (always UTC),
  for precisions other than 6 of `DynDateTime64`, and in zones not whole minutes from UTC.
* **C74 The server gets exactly the blocks of an insert** (RawInsert): loops over streams and acknowledgements; the server as a function of the
  blocks. False for a caller's block without columns.
* **C75 Single-value rows can be written and read** (RawInsert): false for inserts into a column not called `_`; reading proved.
* **C76 Json values survive in text columns** (RawInsert): serde_json as a parameter with its own round trip.
* **C77 A raw row gives back what was set in it** (RawRow, Guess): induction on the Rust type; false when a list starts with an empty list or
  `None` (the inferred element type is `String`), and for enum values (`guess_type` panics).
* **C78 A derived implementation asks of the type parameters what it needs** (Bound): the visitor of bound.rs finds exactly the parameters a type
  mentions, by mutual induction on syntax trees; false for fields that are read but not written.
* **C79 Self in a field's type means the struct** (Bound): induction on syntax trees (types, and expressions in array lengths), for every congruence in which `Self` is the struct; also for the parameters' bounds and the where clause. `Self` in a constant argument, a macro or a constraint is left: refuted, and proved for the rest.
* **C80 What a caller reads is what the server wrote for its query** (Link): the byte reader and the task composed; the n-th response by position,
  invariant along runs. False when a request is taken in the middle of a packet; proved for histories without that, and for callers that take turns.
* **C81 Nested fields are lists of rows** (NestedVec): the check of the field's type as a function on syntax trees; an equivalence.
* **C82 Every query is answered** (Fair): unbounded executions of the connection's state machine, fairness as explicit assumptions (`Spec/Fair.lean`); progress by the number of queries answered, the position in the request channel and the number of items left to read. That the assumptions can be met: any finite run that leaves nothing to do. That the readers' assumption is needed: an execution fair in all other respects.
* **C83 Whoever waits for a lock obtains it** (Lock): unbounded schedules of the cloud of tasks; the loop of `lock` visits ready, sent, answered, asleep forever unless it obtains the lock; each refusal lies after somebody else's success. `lock` polls, it does not queue: a schedule in which it loses every race refutes the full claim; `_partial` and the uncontended case.
* **C84 Cluster migrations name their cluster and database** (Lock, ClusterText): scripts as lists of pieces (text, places); `str::replace` as leftmost non-overlapping replacement; the two passes replace exactly the places when no text can be mistaken for one. False in general (names or texts overlapping with placeholders).
* **C85 Result streams and closed clients** (Handles): the connection of C29-C35 with the number of handles; a step relation in which submitting needs a handle and the request channel ends only without handles. False as to the streams (dropping the last handle ends them like an end of results); the rest by the invariants of the connection.
* **C86 LowCardinality columns are read in every layout a server may choose** (Codec): granules and their meaning as a small relation (`Spec/Granule.lean`); induction over the granules. False for granules that refer to both dictionaries (the client counts through the own keys first) and for NULL in a shared dictionary; proved for the others, and what the client reads in all cases (`C86_own_first`).
* **C87 Progress reports reach every subscriber** (Watch): the connection with its handles (C85) and a broadcast channel that keeps the latest `cap` reports (tokio's documentation; a parameter, at least 100); what a subscriber was told is related to the reports since its subscription by a small inductive relation. By an invariant over histories. False as to the end: every handle keeps a sender, so a subscriber is not told that the connection has ended while a handle is held.
* **C88 Fixed-point numbers as floats** (FixedF64): floats as the rationals with 53 significant binary digits, IEEE 754 rounding to nearest even as a specification (`Spec/F64.lean`; one such rounding is constructed). Order by monotonicity of rounding within an integer part and across one, closeness by the relative error of one rounding. False as to the nearest float: the fraction is rounded before it is added (1.14).
* **C89 What is decoded is in proportion to what was received** (Room, RoomMain): a measure of values (`Spec/Size.lean`) and a relation between what a reader returns and the number of bytes it took, with rules for the reader combinators; by induction over the type: at least a byte a row, at most `2 + d` values a byte, `d` the depth of nested tuples; strings counted in when no `LowCardinality` occurs; then blocks. False for `Tuple()` and `FixedString(0)` (2^30 values from sixteen bytes) and, as to strings, for `LowCardinality` (`n · m` from `n + m`). Memory reserved before reading is not counted.
* **C90 The derive macro complains about every mistake** (AttrReport): tables of the mistakes an item can contain and of the words for what is said twice (`Spec/AttrReport.lean`), a report as a relation between items and complaints; every list of items has a report and the loop's errors are it, by induction over the report with the set of things said so far as invariant. False: a value that is not a literal is passed over.
* **C91 A conversion that fails says why** (Convert): which parts a value is made of for a given Rust type and in what order they are read, and what can be wrong on one level, as relations (`Spec/Refuse.lean`); `from_sql` succeeds iff every level fits and fails with `e` iff `e` belongs to the first part that does not, by induction on the Rust type. Proved in full.
* **C92 Type names are read as the server means them** (TypeText): a grammar of the names a server writes, with white space around arguments and more than one name per type (`Spec/ServerText.lean`); by induction on the grammar, each name passes the argument scanner as one piece and is read as its type. Named tuple members and enum names with syntax in them are false and left out.
* **C93 The nesting of types is bounded** (TypeText): the depth of a type (`Spec/Depth.lean`); false, with a name for every depth; proved: depth is at most a fifth of the length of the name, by induction on the length. The stack itself is not modelled.
* **C94 A batch of migrations comes to an end** (Lock): unbounded schedules as for C83; each request of the batch is followed from sending to answer, the statements left go down with each answer, and however late there is a reset of the lock; if from some time on nobody else obtains the lock, the attempt after that reset obtains it. False in full: a schedule in which every other batch ends and this one never does. No assumption that the lock is ever free.
* **C95 What is accepted as a type name is one** (Type names): a grammar of accepted names, written down without reference to the parser (`Spec/Accepted.lean`), and the parser accepts exactly it, each text as the type the grammar says (induction on the text's length one way, on the derivation the other); whatever is accepted names existing zones and numbers that fit. False in full: the grammar holds texts that name nothing.
* **C96 The text of an error says what happened** (Errors): errors with all their payloads (`ErrorText.lean`), `Display`, `Clone`, `with_column_name`. A text determines the kind of its error (a reader of texts inverts the wording) and the code of an exception; the search for `already exists` finds it exactly in the texts an error carries, never in the wording or across a joint, and the lock model then says what each kind of attempt does. False in full: a message with a line break cannot be told from the stack trace, and a lock is reported as taken when the server merely quotes its name.
* **C97 Every caller gets its whole answer from the bytes** (Client/wire): unbounded executions of `Link` (task + reader over bytes, `Spec/LinkFair.lean`). `Serves`: only replies to queries already sent arrive, all of their bytes do; `Runs`: executor fairness and working writes; `Attend`: callers read or leave. The byte-level execution is mapped to a packet-level one, shown fair (`Serves.fair`), and C82 and C80 give that every caller reads its whole answer, provided no request is taken in the middle of a packet (`C97_read_partial`, `C97_alive_partial`); callers taking turns guarantee that (`C97_in_turn`); in general the claim is false (`C97_false`).
* **C98 Each condition of a SELECT builder is one operand** (SQL): `Spec/Reading.lean` has a small reader of query texts (words, signs, quoted literals, parenthesised groups; comments dropped). Proved: when every fragment is complete by itself, the built statement is read as the clauses with each fragment's nodes in place, each condition in a group of its own. Heredocs, `#` comments, semicolons and comments in comments have no reading there, so nothing is claimed about fragments with them.
* **C99 An argument cannot change the rest of the query** (SQL): the same reader on templates with places; composition with the tokenizer relation of C24. Texts of floats, IPv6 addresses and geometric values come from libraries; what is assumed of them is `PlainExt`.
* **C100 Names in the generated code mean what they should** (Scope): the generated code as the list of names it mentions, with their place (function before the
  `impl`, type, in front of `::`), the local variables in scope and their declarations; an equivalence with conditions on the struct (C100_exact_partial), the conditions
  for ordinary structs through the replacement of `Self` (C100_ordinary_partial), and a refutation for each condition that the macro does not check.
* **C101 What waits in a client is bounded** (Client): an invariant over all histories: the request channel holds at most 1024 requests, each response channel at most 32 items; with the invariant of C30 (items received are items read, buffered or on their way) this bounds what waits. Both bounds are shown to be reached. The queries waiting to be sent are moved out of the channel into an unbounded queue, so their number is not bounded: for every n a history with n waiting queries (C101_queries_false).
* **C102 A success means what it says, as long as the client is open** (Outcome): the outcomes of the calls are functions of the state of the connection at the moment the caller looks; C64 shows a broken connection can end a stream silently, but then the client is closed from that moment on, so an open client at a later time rules it out; the rows follow by induction over the answer. (Inserts are left out: for them it is false, see C63.)
* **C103 A value of the matching Rust type can be stored in the column** (Fitting): by induction over the Rust type, the converter, the validator and the writer agree; which values fit is said by a small recursion on the Rust type (`Fitting`: times in the column's zone, `None` in `Nullable` only; texts with room). It discharges the hypotheses on values of C45, C71 and C75. False of times in another zone, texts too long for a FixedString, `None` for a nullable geometric type, and `Option<Decimal>` in a column that is not `Nullable`.
* **C104 Containers store what their parts store** (Nest): types built over any family of user types, each with any two conversion functions; what is asked of a user value is said by `StoredAs`, of the container by `Holds`; by induction over the container, with the same container functions as in C45. Rows (Spec/Record): a struct of such fields; the reader is that of the declaration whose writer always writes the given row, so C54 and C71 (in its form for a relation between row and what is read, C71_readers) apply.
* **C105 A container fails as the first of its parts that fails** (Nest): the types asked and what they are told (`calls`), the things done while reading (`steps`), and the end of things done in order (`InOrder`) are in `Spec/Calls.lean`;
  the user types' conversions are arbitrary functions that may fail or panic; by induction over the container, the end of every loop being the end of the concatenated steps of its turns.
* **C106 What one struct inserted, another may select in part** (Storage, Record): an answer is a list of row numbers of the stored rows, in any order, with a choice of columns (`Selects`, Spec/Answers);
  the reader is shown to take the values given by name (C54, for the declaration that always writes these values), and these are the ones C104 says the writer wrote; an `Option` over a column that is not NULL reads `Some`.
* **C107 What a server can make the client reserve** (Reserve, ReserveLemmas): the readers once more with a note of every reservation whose size comes from the wire or from the type, in the order of the code; leaving the notes out
  gives the readers of `Codec` and `Compress`. By induction over the type: the largest note; and the sum of the notes, against the bytes taken on success and the bytes received in any case. The claim is false: room for what is announced is reserved
  before it is received (2^30 rows, a `FixedString` of any width, 2^32 bytes for a frame of 25); proved is that nothing more than that is reserved: `weight t` for each byte received and for one more largest reservation.
* **C108 Derived code means the same in every module** (Loose): the names the generated code writes without `::` in front, by kind (type or crate, variant, macro, method of a trait, variable), part by part; a module is
  any choice of what such names mean there. An equivalence with the list of what the code takes for granted and of the variables no constant may be called like (C108_exact_partial, for every struct and module), from which the usual module with `Row` imported is
  enough (C108_usual_partial); refuted for flattened fields without the trait `Row` in scope, for other meanings of `Option`, `Vec`, ..., `Ok`, and for a constant `map`.
* **C109 Every value can be shown, and a shown time is the time** (Shown): `Value.text` (C27) with the date and time arms no longer a parameter but the conversions of `Dates` (C48) and chrono's RFC 3339 text (C73, external). By
  induction over the value: a text or a panic, a panic exactly when some part is a 256-bit decimal, a time outside the calendar or an uneven map (C109_exact_partial), lifted to templates (C109_arguments) and to the values of columns
  (C109_column_partial, over C06's `Storable`) and to the refused values of inserts (C109_refusal, C109_refused_batch); the quoted text of a time is read as the same instant (C109_datetime_partial, C109_datetime64_partial), in every zone within half a minute (C109_datetime_drift). Refuted five times.
* **C110 Values survive serde** (ValueSerde): the derived implementations of `Value` over serde's data model (variants by number, contents as trees), the times by hand as in C73; serializer and deserializer are taken to carry the data model.
  By induction over the value: what comes back is the value with its times in UTC and at six digits (C110_back_partial, `inUtc`), hence the same exactly when they were (C110_exact_partial, C110_timeless); what `inUtc` says is the same instant (C110_instant); reading anything never panics (C110_read). Refuted three times.

## Trusted base

* **Lean 4.33.0's kernel.** Every theorem is accepted by the kernel; nothing is decided by compiled code.
* **Axioms.** Only Lean's three standard ones, `propext`, `Quot.sound` and `Classical.choice`; no axiom is declared
  here. Measured with `#print axioms` over every theorem of the manifest; the appendix at the end of this file lists each
  theorem under the axioms it depends on.
* **The transcription.** That the Lean definitions say what the Rust code says. Each definition cites the file and
  lines it models. Nothing was compiled or run, so this link is by reading only; as a check of it,
  `UnitTests` (and the end of Props/Lexer) evaluate the crate's own unit tests on the model.
* **The specifications** in `lean/Verif/Spec/*.lean`: small files, independent of the model's functions, that say
  what ClickHouse or the documentation expects (wire layouts, packet readers of a server, calendar, SQL lexer,
  case rules, attribute table). They are what a reader should check against the English properties.
* **External code**, a parameter of the statements with its assumptions written out in each: LZ4 (decompress undoes
  compress), CityHash (a function), the `compiler_tools` matching engine (any choice of a
  pattern that matches, not passing over an earlier declared one that matches as much) and its `parse_str` (reads up to the first quote
  that is not escaped),
  the arithmetic of `f64` (each operation is exact arithmetic followed by IEEE 754 rounding to nearest even; overflow, underflow and the
  sign of zero are left out, which no number in C88 comes near),
  `chrono`/`chrono_tz` (time zones are names; the proleptic Gregorian day number is specified in Spec/Calendar and the
  code's use of chrono is modelled as integer arithmetic), `rust_decimal` (a mantissa and a scale with the documented
  ranges), `geo_types` (its closing of rings, from the documentation), float printing, IPv6 printing, RFC 3339
  parsing, `syn`'s parsing of attributes (the model starts from the parsed meta items), `refinery_core`'s planning of
  migrations (the model starts from its calls), tokio's channels (bounded FIFO queues with a closed flag; the broadcast channel as its documentation says, see `Watch`), `select!`
  (either ready branch may be taken; the other future is dropped), the server (any sequence of bytes or packets).

## What is modelled

| code | model |
|---|---|
| io.rs, block.rs, internal_client_in.rs, internal_client_out.rs, protocol.rs | `Io`, `Block`, `Packets` |
| types/mod.rs, types/serialize/*, types/deserialize/* | `Values`, `Codec`, `TypeText`, `Reserve` (reservations) |
| values/* (bytes, dates, decimals, fixed point, geo, int256, ip, uuid, bfloat16, equality, hashing, text form, order of 256-bit integers, serde of dates and times) | `Values`, `Dates`, `Numeric`, `FixedF64`, `Geo`, `ValueHash`, `Sql`, `Order`, `Serde`, `Shown`, `ValueSerde` (derived serde of `Value`) |
| convert/* (std types, raw rows, unit values, Json, tuples as vectors) | `Convert`, `RawRow`, `RawInsert`, `Dates`, `Numeric` (C103: `Spec/Fitting`), `Nest` |
| compression.rs | `Compress` |
| client.rs (connection task, select loop, requests, query/insert calls, streams) | `Client`, `Query`, `Cancel`, `Link` (both together), `Steady`, `Outgoing`, `Session`, `Outcome` (what the calls return), `Handles` (clones of a client), `Watch` (subscribers of progress); insert then select: `Storage`; raw inserts: `RawInsert` |
| manager.rs (outcomes of connect, is_valid, has_broken; not bb8 itself nor name lookup) | `Session`, `Handles` |
| query/*, query_parser.rs | `Sql`, `Lexer` |
| lock.rs, migrate.rs | `Lock`, `Migration`, `ClusterText` |
| progress.rs, errors.rs (all) | `Query`, `RawRow`, `ErrorText` |
| klickhouse_derive: attr.rs, ast.rs, check.rs, ctxt.rs, case.rs, row.rs, bound.rs, receiver.rs (types, expressions in array lengths, generics and where clauses) | `Attr`, `Case`, `Derive`, `Bound`, `NestedVec`, `Scope`, `Loose` |

## What is not modelled

* Memory: allocation failure (the `capacity overflow` panic of reserving more than `isize::MAX` bytes is modelled where a length
  from the wire or the schema reaches it: `deFixed`, `takeIterRows`; how much is reserved is modelled in `Reserve`, not what becomes of a reservation the machine has no room for), stack depth of the recursive (de)serialisers, buffer reuse.
* Time: timeouts are events that may or may not happen; nothing is said about how long anything takes.
* Sockets: TCP, TLS, name resolution; the transport is a sequence of bytes that may end or fail at any point.
* `Debug` texts of errors and `Display` of the standard library's I/O errors, logging, the serde impls of the libraries (UUIDs, IP addresses, `half`); the derived ones of `Value` are in `ValueSerde`; serde_json's and chrono's own writers and parsers are
  parameters with their round-trip law.
* klickhouse_derive: the generation of tokens from the derived layout (fragment.rs, respan.rs, dummy.rs); span information. `deny_unknown_fields` is left out
  because the code it generates does not compile.
* Cargo features other than `bfloat16`: the model has them all on (`compression`, `serde`, `geo-types`, `bb8`,
  `refinery`, `rust_decimal`).

## Where the code does not do what the property says

The full property is refuted by a theorem with a concrete witness and the true part is proved as `_partial`.

| claim | witness | theorem |
|---|---|---|
| C01 | 2^63 written as nine groups loses its top bit | `C01_varuint_roundtrip_false` |
| C07 | LowCardinality flags announcing no dictionary | `C07_row_count_false` |
| C08 | decreasing array offsets (debug), map offsets (any build), `FixedString` of length 2^63 | `C08_no_panic_false*` |
| C12 | tuples of another length, ragged maps, NULL in Nullable(Point) | `C12_false_*` |
| C15 | overflow flag read as set whatever was written | `C15_overflow_flag_fails` |
| C16 | a ragged last column that is invisible on the wire | `C16_ragged_incomplete_fails` |
| C17 | rows but no columns; draining beyond 2^58 rows | `C17_agreement_fails`, `C17_take_iter_rows_fails` |
| C18 | enum names with parentheses, commas, `=` | `C18_enum_name_fails` |
| C19 | a stray `)` (debug), a lone quote (any build) | `C19_parse_panics` |
| C21 | Decimal scale 0, DateTime64(0), DateTime64(10..18) | `C21_ranges_fail` |
| C22 | an enum without a 0 | `C22_enum_default_fails` |
| C23 | a template with a quote right behind the argument | `C23_adjacent_quote_fails` |
| C27 | small decimals, negative Int256, one-tuples, Decimal256 | `C27_*_fails`, `C27_decimal256_panics` |
| C33 | the server ends the insert early, a queued block is sent inside the next query | `C33_inside_false` |
| C35 | `select!` drops a half-read packet | `C35_interleaving_false` |
| C36 | a block announcing 2^58 rows without columns; a row whose conversion panics loses its whole block | `C36_stream_false`, `C36_row_panic_false` |
| C38 | a column no row gives, rows that fail to serialise, realigned values; refusing a value without a text (Decimal256) panics | `C38_*_false` |
| C39 | server revisions 54058, 54372, 54401 (`>` for `>=`) | `C39_hello_false` |
| C40 | nested exceptions, log packets, part UUIDs | `C40_nested_false`, `C40_log_false`, `C40_parts_false` |
| C45 | `Some(None)`, tuples of LowCardinality, byte vectors hinted as arrays of strings | `C45_*_false` |
| C46 | mismatched compound types without elements | `C46_mismatch_accepted` |
| C47 | dates outside 1970..2149 wrap | `C47_outside_not_refused` |
| C48 | late instants wrap or panic; precisions above nine wrap in release builds | `C48_overflow_not_refused`, `C48_precision_release_false` |
| C51 | read back beyond 28 digits | `C51_readback_false` |
| C53 | index = length panics | `C53_index_false` |
| C54 | unknown columns before the positional ones become a field's value; `serialize_with` on nested or flattened fields | `C54_unknown_misassigned`, `C54_serialize_with_false` |
| C55 | `a_1` and `a1` in PascalCase | `C55_pascal_collision` |
| C58, C59 | `reset()` and the 60 s takeover break exclusion | `C58_exclusion_false`, `C59_lock_stolen_false` |
| C58, C59 | a connection that breaks may be reported as success: a handle without the lock, a lock not released, a statement not run | `C58_lost_false`, `C59_unreleased_false`, `C59_phantom_false` |
| C60 | panics instead of errors without the feature | `C60_refused_cleanly_false` |
| C61 | open rings, empty polygons, NaN start points | `C61_geo_back_false`, `C61_geo_nan_false` |
| C63 | an exception after the header of an insert | `C63_reported_false` |
| C64 | the stream of a lost connection ends normally | `C64_loss_reported_false` |
| C65 | one caller that does not read blocks the task | `C65_not_held_up_false` |
| C66 | `rename = NAME` (not a literal) is ignored | `C66_ignored_false` |
| C67 | NaN coordinates, signed zeros in points | `C67_reflexive_false`, `C67_hash_false` |
| C70 | the server is lost after the SET was sent; the server's reason for refusing is dropped | `C70_accepted_false`, `C70_reason_false` |
| C72 | negative Int256 sort above positive ones | `C72_signed_false` |
| C73 | the zone is lost; a dynamic precision comes back as microseconds; zone offsets with seconds shift the instant | `C73_zone_false`, `C73_dynamic_false`, `C73_seconds_false` |
| C74 | a block without columns ends the insert early | `C74_server_false` |
| C75 | unit values are written under the column name `_`, which tables do not have | `C75_insert_false` |
| C77 | `vec![vec![], vec![1u32]]`, `vec![None, Some(1u32)]`, enum values | `C77_empty_false`, `C77_null_false`, `C77_enum_false` |
| C78 | `skip_serializing` or `serialize_with` on a field of a type parameter that is read; nested fields ask for too much | `C78_reading_false`, `C78_nested_false` |
| C80 | a request taken in the middle of a packet: a stream ends without the block written to it | `C80_false` |
| C83 | `lock` polls every 100 ms and may lose every race | `C83_obtained_false` |
| C84 | a database named with a placeholder; text read together with the last `%` of a placeholder | `C84_filled_in_false` |
| C85 | dropping the last handle ends the streams still being read, without an error | `C85_stream_ends_false` |
| C86 | a granule with both dictionaries; NULL in a shared dictionary | `C86_both_false`, `C86_shared_null_false` |
| C87 | a subscriber is not told of the end of the connection while any `Client` handle is held | `C87_end_told_false` |
| C88 | the fraction is rounded before it is added: 1.14 becomes 1.1400000000000001 | `C88_nearest_false` |
| C89 | values of `Tuple()` and `FixedString(0)` take no byte; rows of a `LowCardinality` column each hold a copy of their string | `C89_empty_tuple_false`, `C89_fixed_zero_false`, `C89_low_cardinality_false` |
| C79 | `Grid<{ Self::N }>`: `Self` in a constant given as an argument is left in the generated code | `C79_no_self_false` |
| C90 | an attribute whose value is not a literal (`rename = NAME`) is not reported | `C90_silent_false` |
| C92 | `Tuple(a UInt8, b String)` is refused; an escaped quote in an enum name is taken literally | `C92_server_names_false` |
| C93 | for every depth there is an accepted (and valid) type name of seven characters a level | `C93_unbounded_false` |
| C94 | a batch that never ends although its requests are answered, its sleeps end and every other batch ends: each time it has reset the lock, a newer batch is faster | `C94_ends_false` |
| C95 | `Array(UInt8,)`, `FixedString(+007)`, `Enum8()`, `Tuple()` are accepted; `Enum8(' a' = 1, 'a' = 2)` has one name twice | `C95_accepted_false` |
| C96 | a lock named `job that already exists`: the server's syntax error quotes the name, `try_lock` says taken, `lock` waits forever; a line break in a message | `C96_taken_false`, `C96_parts_false` |
| C97 | a request taken when one byte of an answer has been read: the caller never reads its block, the connection breaks down, though server, transport, executor and callers do their part | `C97_false` |
| C98 | a condition ending in a `--` comment swallows the closing parenthesis; one with `) OR (` splits in two | `C98_comment_false`, `C98_parenthesis_false` |
| C99 | `b-$1` with a negative argument: `b--1` begins a comment, and the rest of the line is not read | `C99_minus_false` |
| C100 | a nested `Vec<Inner<T>>`; `Self` in a constant of a nested row; a flattened `Inner<u8>`; nested fields `items` and `items_len`; `serialize_with = "out"`; `deny_unknown_fields` | `C100_nested_false`, `C100_self_false`, `C100_flatten_false`, `C100_variables_false`, `C100_functions_false`, `C100_deny_false` |
| C101 | queries handed over and not sent are not bounded: the connection takes every request out of its channel of 1024 at once and queues the queries without limit | C101_queries_false |
| C103 | a time in another zone is refused; a text too long for a FixedString is accepted and cut; `None` for a Nullable(Point) is accepted and panics in the writer; an `Option<Decimal>` is refused by the Decimal column that takes the same `Decimal` | C103_zone_false, C103_fixed_false, C103_null_point_false, C103_optional_decimal_false |
| C108 | a flattened field where `Row` is not imported; another `Option`, also as a parameter; another `Ok`; a constant `map` | `C108_row_false`, `C108_types_false`, `C108_variant_false`, `C108_const_false` |
| C109 | 256-bit decimals; times before 1970; ten digits with overflow checks; uneven maps; zones with an offset in seconds | `C109_decimal256_false`, `C109_time_false`, `C109_precision_false`, `C109_map_false`, `C109_seconds_false` |
| C110 | a time in another zone than UTC; a `DateTime64` of other than six digits; a `DateTime64` before 1970 | `C110_zone_false`, `C110_precision_false`, `C110_panic_false` |
| C107 | room for announced rows, for a `FixedString` and for a frame's contents is reserved before they are received | `C107_fixed_false`, `C107_numbers_false`, `C107_frame_false` |

## Testing the theorems

`seeded/LOG.jsonl` lists the wrong programs tried: each edit was made in a scratch copy of the model, which was then
rebuilt; where no theorem failed although a claim had become false, the theorem was tightened and the edit tried again.
`tools/mutate.py` is the script used.

## Appendix: the axioms of each theorem

Generated by `tools/axioms.py` from `#print axioms` over every theorem of MANIFEST.json.

* **no axiom at all** (11 theorems):
  C36_dichotomy C36_execute C36_one C48_overflow_not_refused C49_scale_too_large C54_declared_via C54_via
  C55_pascal_collision C84_client C96_kind C96_parts_false
* **`Quot.sound`** (1 theorems):
  C36_collect
* **`propext`** (73 theorems):
  C04_scalar_exact C12_false_long_tuple C12_false_null_point C12_false_ragged_map C12_validated_serialises_false
  C18_enum_name_fails C19_parse_panics C21_ranges_fail C22_enum_default_fails C23_adjacent_quote_fails
  C26_overwritten_error_dropped C27_decimal256_panics C27_decimal_fails C27_one_tuple_fails C33_inside_false
  C38_realigned_false C38_refusal_panics_false C48_chrono_other_refused C48_precision_wraps C51_readback_false
  C53_set_empty_name C55_explicit_name C58_exclusion_false C58_given_back C58_names_apart C58_statements C58_tables
  C59_cluster_lock C59_lock_stolen_false C59_phantom_false C59_plain_lock C59_releases_on_failure C59_unreleased_false
  C60_name_error C60_value_invalid C61_geo_back_false C61_geo_nan_false C63_reported_false C64_loss_reported_false
  C66_ignored_false C66_only_structs C67_hash_false C67_reflexive_false C71_row_type C74_server_false C77_enum_false
  C79_no_self_false C79_no_self_partial C79_same C79_struct C79_unchanged C81_row_type C84_client_table
  C84_filled_in_false C90_silent_false C92_server_names_false C93_validated C95_accepted_false C96_carries C96_clone
  C96_column C98_comment_false C98_parenthesis_false C101_results_reached C103_fixed_false C103_null_point_false
  C103_optional_decimal_false C106_not_optional C108_const_false C108_types_false C108_variant_false
  C109_decimal256_false C109_map_false
* **`Quot.sound`, `propext`** (146 theorems):
  C02_varuint_total C02_varuint_write_bounded C03_oversize_any C03_string_never_panics C05_lossless_iff
  C06_canonAll_idem C06_canon_idem C06_covers_validated C09_array_layout C09_last_offset C17_agreement_fails
  C17_into_iter_rows C17_iter_rows_partial C17_no_columns_none C17_take_iter_rows C17_take_iter_rows_fails
  C22_default_zero C23_string_denotes C23_string_literal_partial C24_arguments_in_order C24_verbatim C25_heredoc
  C25_split C25_trimmed C26_collects C26_distinct C26_first_error C26_order_independent C26_renders C27_date_is_right
  C28_all_converted C28_first_failure C29_advances C29_answered C29_once C29_one_at_a_time C29_order C30_can_read
  C30_nothing_lost C30_reads C31_last C31_next_sent C31_own_query C32_progress C33_after_own_query C33_blocks_in_order
  C33_inside_partial C34_legal C34_nobody_waits C34_nothing_after C34_violation C36_opt C36_row_panic_false
  C36_stream_partial C38_insert_stops C42_no_frame_on_error C43_accepted_is_intact C43_damaged_is_refused
  C43_never_panics C45_distinct_keys C47_calendar_partial C47_date_roundtrip C47_day_wraps C48_chrono_roundtrip_partial
  C48_chrono_to_sql C48_dt64_read C48_dt64_roundtrip_partial C48_dt64_write_partial C48_negative_read_false
  C48_negative_refused C48_precision_above_nine C49_decompose C49_defined C49_together C51_not_rounded C51_read
  C54_by_position C54_declared C54_labels_suffice C54_skipped_source C55_distinct_letters_partial C55_rule_as_promised
  C55_words_exist C56_annotate C58_attempt C58_calls C58_cut_fails C58_lock_tries_again C58_lost_false C59_complete
  C59_first_failure C59_in_order C59_no_lock_no_work C59_patient C59_replace_first C59_replace_none C60_name_refused
  C60_none_written_partial C61_geo_line C61_geo_ring C61_geo_ring_prefix C61_layout C64_unsent_reported_partial
  C65_leaving_frees_partial C65_not_held_up_false C65_stuck_task C66_field_accepted C66_result_partial C70_one_settled
  C70_valid C72_dates C73_date C73_zone_false C74_native C74_sent C74_server_partial C74_single C76_unwritable C78_exact
  C78_nested_false C78_reading_false C78_sufficient_partial C78_users C81_accepted C81_limits C82_readers_needed
  C84_filled_in_partial C84_history_table C85_calls_hold C85_received_stays_partial C85_stream_ends_false
  C87_end_told_false C90_field_partial C99_string C101_blocks C101_blocks_reached C101_queries_false C101_results
  C103_chrono C104_chrono C105_write C107_frame_partial C108_converted C110_instant C110_precision_false C110_zone_false
* **`Classical.choice`, `Quot.sound`, `propext`** (377 theorems):
  C01_varuint_exact C01_varuint_roundtrip_false C01_varuint_roundtrip_partial C03_string_oversize_refused
  C03_string_roundtrip C03_text_fails_iff_invalid C03_text_roundtrip C04_scalar_layout C05_fixed_string
  C06_column_roundtrip C07_row_count_false C07_row_count_le C07_row_count_partial C08_no_panic_false
  C08_no_panic_false_debug C08_no_panic_false_fixed C08_no_panic_false_lc_map C08_no_panic_false_map
  C08_no_panic_partial C08_orderly_partial C09_map_layout C10_low_cardinality C11_nullable_read C11_nullable_write
  C12_false_short_tuple C12_storable_accepted C12_validated_serialises_partial C13_column_injective C14_block_roundtrip
  C15_header_exact C15_header_roundtrip_partial C15_overflow_flag_fails C16_ragged_incomplete_fails
  C16_ragged_incomplete_partial C16_ragged_refused C16_success_rectangular C18_type_text_injective_partial
  C18_type_text_roundtrip_partial C19_parse_no_panic_release_partial C19_parse_no_panic_shape_partial
  C19_rendered_no_panic C20_decimal_width C21_validate_iff_partial C21_validate_server_partial C22_default_valid_partial
  C24_substitution C24_text C25_text C25_two_comments C27_date_literal C27_int256_negative_fails
  C27_literal_denotes_partial C27_uuid_is_right C30_end_of_stream C34_only_then C35_interleaving_false
  C35_same_packets_partial C35_undisturbed_partial C36_connection C36_read_blocks_rectangular C36_read_blocks_typed
  C36_stream_false C37_columns C37_exact C37_insert C37_wire C38_missing_column_false C38_refused C38_sent_valid
  C38_skipped_rows_false C38_some_skipped_refused C38_written_partial C39_hello_false C39_hello_partial C39_refused
  C40_bodyless C40_columns C40_data C40_data_compressed C40_exception C40_exception_partial C40_log_false
  C40_nested_false C40_parts_false C40_parts_partial C40_profile C40_progress C40_statuses C40_unknown_refused
  C41_client_query C41_data_packet C41_hello_packet C41_query_packet C42_frame_roundtrip C42_oversize_refused
  C43_announced_size_unchecked C43_wrong_checksum_refused C44_progress C44_seamless C45_byte_vec_string_false
  C45_nested_option_false C45_roundtrip_partial C45_unit_value C45_unit_value_columns C45_vecTuple_lowCardinality_false
  C45_wire_partial C46_bool C46_compound_refused_partial C46_elements_refused C46_mismatch_accepted C46_no_loss
  C46_no_panic_from_wire C46_scalar_exact C46_string_exact C46_vec_source C47_day_roundtrip_partial
  C47_outside_not_refused C48_calendar_range C48_chrono_error C48_chrono_reads C48_datetime C48_datetime_back
  C48_datetime_zone C48_dt64_read_outcome C48_dt64_write_outcome C48_precision_release_false C50_halves
  C50_halves_roundtrip C50_reinterpret C50_text C51_no_hint C51_out_of_range C51_roundtrip_partial C51_to_column
  C52_ipv4 C52_ipv6 C52_uuid C53_fetch_partial C53_index_false C53_length_and_get C53_serialize C53_set
  C54_duplicate_refused C54_field_source C54_field_source_flatten C54_flatten_skip_false C54_flatten_source
  C54_missing_refused C54_nested_default_false C54_nested_endless C54_nested_hints_false C54_nested_source
  C54_plain_field C54_roundtrip C54_serialize_with_false C54_unknown_ignored_false C54_unknown_ignored_partial
  C54_unknown_misassigned C54_write_only_false C55_camel_panics C55_distinct C55_rule_names C56_row_errors C57_grouping
  C57_order C57_totals C58_cut_off C58_exclusion_partial C58_free_at_rest C58_holders_bounded C58_reacquired
  C58_released C58_stuck_until_reset C59_lock_free_afterwards C59_runs_to_end C59_under_lock_partial C60_blocks
  C60_none_read_partial C60_refused_cleanly_false C60_roundtrip C61_geo_back_partial C61_geo_multi_partial
  C61_geo_polygon_partial C61_multipolygons C61_points C61_polygons C61_rings C62_block_truncated C62_column_independent
  C62_column_truncated C62_packet_independent C62_packet_truncated C62_written_block_truncated C63_reported_partial
  C64_open_means_complete_partial C66_accepted_partial C66_order C67_hash_agrees_partial C67_hash_tells
  C67_identity_partial C67_reflexive_partial C67_symmetric C67_transitive C68_checksum C68_exact C68_refused C68_width
  C69_hello_first C69_queries C69_revision C69_stream C69_whole C70_accepted_false C70_accepted_partial C70_closed
  C70_is_valid C70_prequel C70_reason_false C70_refused C70_set_first C71_derived C71_readers C71_roundtrip
  C72_addresses C72_equal C72_fixed C72_signed_false C72_signed_partial C72_unsigned C73_datetime64_partial
  C73_datetime_partial C73_datetime_refuses C73_drift C73_dynamic_false C73_dynamic_partial C73_seconds_false
  C75_insert_false C75_insert_partial C75_one_column C75_read C76_json C76_refuses C77_empty_false C77_inferred_partial
  C77_null_false C77_typed C80_false C80_in_turn C80_position C80_reads_partial C80_whole_partial C82_acked C82_answered
  C82_blocks C82_read C82_returns C83_keeps_trying C83_lock_obtained_partial C83_obtained_false C83_uncontended
  C85_closed_final C85_open_while_held C86_both_false C86_granules_partial C86_own_first C86_shared_null_false C87_ended
  C87_query C87_reports C88_close_partial C88_nearest_false C88_negation C88_order C88_scale_too_large C88_whole
  C89_block_memory_partial C89_block_values_partial C89_empty_tuple_false C89_fixed_zero_false C89_low_cardinality_false
  C89_memory_partial C89_values_partial C90_silent C90_struct_partial C91_case C91_error_says_why C91_from_wire
  C92_column C92_server_names_partial C92_unambiguous C93_depth_partial C93_unbounded_false C94_ends_false
  C94_ends_partial C94_succeeds C94_uncontended C95_accepted_partial C95_vetted C96_attempt C96_code C96_parts_partial
  C96_says C96_taken_false C97_alive_partial C97_false C97_in_turn C97_read_partial C98_calls_partial
  C98_conditions_partial C99_complete C99_minus_false C99_select_partial C99_structure_partial C100_deny_false
  C100_exact_partial C100_flatten_false C100_functions_false C100_nested_false C100_ordinary_partial C100_self_false
  C100_variables_false C102_collect C102_collect_error C102_execute C102_execute_error C102_no_panic C102_now C102_one
  C102_opt C102_opt_error C103_accepted C103_column_partial C103_decimal C103_insert_partial C103_kept_partial
  C103_struct_partial C103_zone_false C104_column C104_decimal C104_insert C104_json C104_stored C104_struct C105_case
  C105_from_wire C105_read C105_row_case C105_row_read C105_row_write C106_insert C106_select C106_struct
  C107_fixed_false C107_frame_false C107_numbers_false C107_one_partial C107_readers C107_total_partial
  C108_exact_partial C108_row_false C108_usual_partial C109_arguments C109_column_partial C109_datetime64_partial
  C109_datetime_drift C109_datetime_partial C109_exact_partial C109_precision_false C109_refusal C109_refused_batch
  C109_seconds_false C109_time_false C110_back_partial C110_exact_partial C110_panic_false C110_read C110_timeless
