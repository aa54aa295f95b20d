# Formal model of clickhouse-rs: design

Target: `suharev7/clickhouse-rs`, the commit checked out in `/repo` (Rust, read as text, never built here).
Tool: Lean 4.33.0 (+ single Mathlib modules where useful). Lake project in `lean/`.

## Layout

* `lean/Verif/Base.lean` – bytes, outcomes, incremental readers (`Reader`) and their laws.
* `lean/Verif/Model/*.lean` – the model of the code, function by function; every definition cites the lines it models.
* `lean/Verif/Spec/*.lean` – small independent specifications (what the English property says) that do not use model helpers.
* `lean/Verif/Lemmas/*.lean` – helper lemmas.
* `lean/Verif/Props/*.lean` – the property theorems, each with a concrete `example` meeting its hypotheses.
* `lean/Verif/Conform/*.lean` – the project's own tests, as examples about the model.
* `properties.jsonl` – properties C01...; `MANIFEST.json` – property → theorems; `seeded/LOG.jsonl` – mutation log.

## Trusted base

* Lean's kernel; axioms used are at most `propext`, `Classical.choice`, `Quot.sound` (checked with `#print axioms`; `vcheck` re-checks).
* The reading of the Rust source: the model is hand-written from the text of `/repo/src`, the correspondence is by inspection (comments cite lines).
* Rust/`std`/crate semantics assumed: integer `as` casts truncate; arithmetic overflow, out-of-range slicing, `unwrap` of `None`/`Err`, `unreachable!`, `unimplemented!` panic (modelled as the explicit outcome `panic`; overflow is treated as in a build with overflow checks; C102 is about builds without); the machine is little-endian with 64-bit words (C103 and C105 are about others); `Vec`, `String`, `HashMap`, crossbeam queues behave as documented.
* Parameters (universally quantified, not axioms): LZ4 compress/decompress pair (C96 writes the decompressor out), the checksum function (C80 models the C++ code of it), the timezone database (name ↔ zone, offsets), UTF-8 validity predicate where only "is valid" matters, the OS socket (an arbitrary stream of poll results), the scheduler.

Not modelled: the inside of TLS and of DNS resolution (their outcomes are parameters), real time, memory allocation failure for sizes up to `isize::MAX` (beyond that the panic is modelled, `alloc`) and stack memory (C104 counts activations), `unsafe` memory layout beyond "pointer + length denotes this list", the async runtime beyond poll/wake, logging, float arithmetic except where decimals are made from floats or become floats (C94; elsewhere floats are opaque bit patterns), of `chrono` all but the calendar and the formats `%Y-%m-%d` and `%H:%M:%S` (C90), as it documents them.
* `Spec/Native` states the native format from what servers document and send; that this is what servers do is knowledge about the server, not about /repo.

## Modelling conventions

* Bytes are `UInt8`, byte strings `List UInt8`. A reader is `List UInt8 → Res α` where `Res` is `ok value rest | more | err e | panic`;
  `more` is the `WouldBlock` outcome of `read_bytes` on a short buffer (`src/binary/read_ex.rs`), on which the transport waits and re-parses.
* Panics are the explicit value `panic`; a theorem "never panics" quantifies over all inputs.
* State machines: `step : State → Input → State × Output` and theorems over all finite histories (lists of inputs).
* When the code violates a property, the negation is proved on a concrete witness (theorem name ends in `_fails`/`_violated`) and the strongest true restriction is proved under a name ending in `_partial`.

### The layers above the wire

* The socket is an arbitrary list of read and write events; the transport (`Model/Transport.lean`) is a state machine over it.
* Client operations (`Model/Client.lean`) are modelled over connections that give decoded packets: what is on its way, plus an
  arbitrary server function from the commands received so far to what it sends upon the last. Leaving the
  socket out is justified by C41, C44, C70 and C82 (`Model/Socket.lean` has the operations once more, over the socket, and `Model/Cancel.lean` with timeouts and abandonment; `Model/PoolUse.lean` has handles going in and out of the pool with their connections). An operation for which nothing more comes "waits"; the state shown is what a timeout or cancellation leaves.
* Reconnecting is an arbitrary list of outcomes (a fresh connection or a failure).
* `Block::cast_to` is a parameter of the INSERT model. Chunks of an INSERT are computed before the first is sent (they do not
  depend on the server).
* The pool (`Model/Pool.lean`) is a set of calls in progress, each a program counter, over the shared queues and counters; one
  step is one atomic operation, and executions are arbitrary interleavings (sequential consistency is assumed for the orderings
  `Acquire`/`Release`/`AcqRel`/`SeqCst` used). `SeqReach` restricts to executions in which calls do not overlap (one thread).
  The futures that open connections give arbitrary outcomes. `Model/PoolDrop` adds the
  clones of the pool and the strong references to `Inner`; before it is freed its states are those of `Model/Pool`.

## Properties: what is modelled, how it is proved

| id | model | proof |
|----|-------|-------|
| C01 | `put_uvarint`, `read_uvarint` on 64-bit values | induction on the value (7-bit digits) with the shift/accumulator invariant |
| C02 | same reader on arbitrary bytes, `panic` for shift ≥ 64 | invariant "accumulator = base-128 value"; witness of 11 continuation bytes for the panic; `_partial`: inputs with at most 10 continuation bytes |
| C03 | `byte_string`, `read_string`, `skip_string` | from C01 plus list splitting; induction for the 1024-byte skip loop |
| C04 | little-endian marshal/unmarshal of width w | induction on w |
| C05 | the whole packet parser as a `Reader` built from combinators | every combinator preserves "prefix-monotone"; then the full parser |
| C06 | `BlockInfo::read/write` | unfolding + scalar lemmas |
| C07 | parser of each server packet, spec encoder per revision | unfolding with C01–C04 |
| C08 | `parse_packet` dispatch | case analysis |
| C09 | inductive column data type with `load`/`save`/`at` | structural induction on the type tree |
| C10 | `Block::write`, `raw_load` | from C09, induction on columns |
| C11–C13 | frames, `CompressedReader`; LZ4/hash are parameters | frame round trip; list induction over frames; witness for size < 9 |
| C14, C15, C59 | `SqlType::to_string` and factory parsers on character lists | structural induction; witnesses for the violations; the texts on which the analysis panics written down as a grammar (`Panics`) and proved to be exactly those |
| C16–C18 | `ChunkIterator`, range `save`, insert command sequence | induction on remaining rows; witness for arrays with start > 0 and for empty INSERT |
| C19 | `build_index`, `find_chunk` (binary search), `at` | loop invariant of the binary search |
| C20 | `StringPool` chunks/position/pointers | refinement to a list of byte strings, invariant "pointers disjoint and in range" |
| C21 | index vector + dictionary + map | refinement to list, invariant; witness for loaded dictionaries |
| C22, C25, C26 | push/at of nullable, array, map, fixed string | refinement to list of values |
| C23, C24 | iterators as state machines; `get_internal` routing by (level, props); levels in `u8` (Model/Levels) | invariants; witnesses |
| C27 | octet permutations | involution |
| C61 | `from_url` with `percent_decode`; the `url` crate is a parameter | induction on the way the text is escaped |
| C64 | `column_from` for every element type, option, vector and map | through the push and read lemmas of C09, C57 |
| C65 | `fetch_all` over the block stream of C45, with `Block::concat` of C19 | gathering follows the run of the block stream |
| C66 | `stream`: `flatten` of the rows of the blocks | rows got are a prefix of the rows of the blocks got; induction on polls and on what is left |
| C67 | `Model/Share`: `Arc` allocations with strong counts, `Column::push`, `clone_instance`, `Clone`, drop | invariant over all sequences of operations (references go to older, unfreed allocations); frame lemma: a push writes only to allocations reached along unshared references |
| C68 | the type-name parsers of `Model/SqlType` and `resolve` of `Model/Load` | a grammar (`Spec/Names`) as an inductive relation, proved equivalent to the analysis by induction on the grammar and on the length of the text |
| C62 | `Model/PoolDrop`: strong references to `Inner` counted over users, handles, the opening future and calls; freeing | invariant over all executions; exact characterisation of the states left behind; invariant for one thread without drops during an opening |
| C28, C29 | integer day / nanosecond arithmetic | `omega`; witnesses |
| C30, C31 | decimals over ℤ with i64 overflow as panic | arithmetic; digits; witnesses |
| C32–C34 | block builder, lookup, casts | induction on rows; witnesses |
| C35–C37 | string functions on character lists | list induction |
| C38, C39 | encoders and an independent server-side decoder | round trip |
| C40–C43 | transport as a state machine driven by an arbitrary socket | invariants over all schedules |
| C44–C47, C60 | packet stream, block stream, client operations over an arbitrary packet source | induction on packets; witnesses |
| C48–C50, C53 | pool: one step per atomic operation, any interleaving of any number of calls; executions without overlap as a subset | invariants; witness traces for the races |
| C51 | `retry_guard` loop | induction; witness of non-termination (no finite fuel suffices) |
| C52 | handle = (transport?, binding) state machine | exhaustive transition analysis; witnesses |
| C54–C57 | value trees | structural induction; witnesses |
| C58 | effective timeout function | case analysis (`_fails` witness: none becomes zero) |
| C69 | `connecting_stream.rs` (the race of `select_ok`, TLS as a parameter), `Client::open`, the `tls` parameters of `set_params` (`Model/Connect`) | induction on the attempts left and on the number of polls; case analysis of the opening |
| C70 | relation between `Model/Transport` (bytes, polls) and `Model/Client` (messages, awaits) | forward simulation: one poll keeps the relation or agrees with one await; induction on polls, on items, and on the length of the scripts for progress |
| C71 | the loops of `hello`, `ping`, `execute_`, `clear`, `read_block`, `insert_` (`Model/Client`) | a specification on message sequences only (`Judged`); induction on the messages and on the chunks |
| C72 | `with_setting`, `From<..> for SettingType`, `serialize_settings` (`Model/Options`, `Model/Cmd`) | `LastGiven` on the sequence of calls; induction on the calls; the server side is the reader of C38 |
| C73 | the iterators of `column/iter/mod.rs` as states with positions (`Model/Cursor`) | the reference is a list (`answersOf`); simulation of each `next` by the run of `Model/Iter`, by induction on the Rust type; `len` by counting down |
| C63 | all readers with the panic of `Vec` beyond `isize::MAX` bytes (`alloc`) | `Blame P p`: a panic of `p` implies `P` somewhere in its input; closed under bind, loop, recursion over plans; the negative half by running the readers on the hostile bytes |
| C74 | `Display` of `Value` and `ValueRef`, `Debug` of `Block` (`Model/Show`) | a relation `Prints` between values and texts, both formatters follow it by induction; the table against a specification of its lines (`TableLines`), widths by `chars ≤ bytes` |
| C75 | `From<T> for Value`, `From<Value> for T`, `HasSqlType` (`Model/Into`), `Value::default` against `ZeroOf` | induction over the Rust type against `Returns` and `Holds`; maps by filling with distinct keys |
| C76 | `save`, `load`, `Block::write`, `Block::raw_load` and blocks converted for an INSERT (`Block::cast_to`) against the native format (`Spec/Native`) | induction over the column (writing) and over the bytes in the format (reading); the format is stated from scratch |
| C77 | socket, transport, parser, frames, blocks and results together, against an answer laid out from scratch (`Spec/Answer`) | composition of C76, C13, C07, C70, C65 and C66; frames are stated from scratch and shown to be what the reader accepts and the writer builds |
| C78 | insert and select together: the user's cells, their counterparts in the table's types, the bytes sent, and the rows another connection gets back (`Spec/Store`) | composition of C34, C76, C71 and C77; a block of up to 1048576 rows is its own only chunk; larger blocks without arrays and maps by induction on the chunks, also when the columns are converted (each adapter writes any slice as the converted column would: `Sent.slices`) |
| C79 | a database as a state machine, a server of it, lists of things asked of a handle (`Spec/Service`); the model of the client runs them | invariant: in step, or the rest of one answer is on its way; each operation from such a connection leads to such a connection, with the database's own effect |
| C80 | the functions of city.cc that `CityHash128` reaches, over a buffer with recorded reads (`Model/City`); CityHash128 on lists (`Spec/City`) | a rule for sequencing reads, induction over the rounds of each loop (with the fuel shown to suffice); agreement with the two checksums in the tests of /repo by computation |
| C81 | a database that may refuse or break off (`Spec/Faults`), worlds of reconnections, breaks between operations; the model of the client runs all of it | invariant `Ready`: connection in step, rest of an answer, broken, or gone; the check before each operation gives a connection in step; then as C79. Partial: not for a stream read up to the failure (C52, C47) |
| C82 | the operations of `Model/Client` once more over `Transport`/`PStream` (`Model/Socket`), loops as a relation over `Awaits`; a socket is its script of reads and writes | parametricity of the loop bodies in the connection (`SameBody`), C70 for every packet awaited; a connection that has all answers on its way already gives what the one that answers command by command gives (`Lemmas/Feed`); progress: every accepted write lowers the count of what is unsent (`Lemmas/Progress`); then C79 |
| C83 | the two lines logged by `Client::open` and `hello`, with `Debug` of context, options and address (`Model/Log`); texts given by the url crate and the standard library are foreign | violation for every URL with a password by exhibiting it in the line; independence of the line from the other password |
| C84 | the operations of `Model/Socket` over a socket without restrictions; `Hears`: what may be heard of a socket | backward simulation: the commands given are known going forward, what is heard is put together from the end (`Lemmas/Outage`); the loop bodies are parametric in the connection (`SameBody`); then C71 and C45 on what was heard, also after the check beforehand and for each chunk of an INSERT (`Lemmas/Answered`) |
| C85 | waiting futures as relations (`Model/Cancel`): `Stalls`, `LoopCut`, `ThenCut` for each `await`, timeouts and abandonment in `PingT`, `RetryT`, `CheckedT`, `OpenT`, `ReadWaits` | inversion of where the future waits; bytes by the invariant of `Lemmas/Outage`; backward simulation as C84, a waiting loop being one on messages that waits; C81 from the handle left; determinism of polling for awaiting again; `_violated` witness in the check |
| C86 | `Model/PoolUse` (handles with their connections going in and out of the pool's queue) with the client of `Model/Client`; `Spec/Crowd`: tasks and a database that others change, a connection's server being looked at anew for every operation | invariant on idle handles, handles at rest and streams being read; step by step from C81 for operations, from the lemmas on streams for reading; induction on what happens; `_violated` from C71 |
| C87 | the relations of `Model/Socket` and `Model/Cancel`; `Spec/Total`: where an operation is when it has no result (waiting for ever, or in a panic of the parser or of the encoder) | each relation has exactly one result or cause (`Fate`), composed step by step; loops by induction on the bytes left to be read, retries on the connections left |
| C88 | Model/Pool, Spec/Keep (idle queue, executions with a bounded number of calls in progress, calls that run alone) | what every step does to the queue; invariants for lost and unfinished connections; a weighted count of idle connections, calls about to store and calls about to take; executions built by induction on the number of calls show that the bound cannot be improved |
| C89 | Model/Socket, Spec/Answer, Spec/Whole: operations over scripted sockets whose bytes are those of an answer | the successful operation decodes the delivered bytes to an end (C84), the answer decodes to its messages (C77), and two decodings of the same bytes up to their first message that is not of the middle of an answer coincide (Lemmas/Whole) |
| C90 | Model/Calendar (dates, day numbers of `num_days_from_ce`, adding days, `%Y-%m-%d %H:%M:%S`); Spec/Calendar has only the lengths of months and the day after a date | the day number grows by one with each day after and orders the dates; the inverse by cycles of 400, 100, 4 and 1 years; composed with C28 for columns; texts digit by digit |
| C91 | Model/Socket (insert over a socket), Model/Cast, Model/Cmd; the server's reader of Spec/Server and the native format of Spec/Native | refinement to decoded messages (C84) gives the commands, the flush invariant (C82) that all of them were taken; the commands' bytes by C38, C77 and C78 |
| C92 | the INSERT of C91 and the query of C89 over two sockets; a server as any reading of the bytes by Spec/Written and Spec/Native (`Understood`) | the reading is unique because the client's own reader, proved right for the native format (C76, C77), is a function; then C91 and C89 composed, without and with the check before both (reconnecting included) |
| C93 | the operations of a handle with reconnections that bring a new context (Model/Reopen) | invariant: every statement a connection has been given is written for the revision its server has announced; kept by the check (induction over the reconnections) and by queries; refuted for execute and insert by a witness; erasing the contexts gives Model/Client |
| C94 | f32 and f64 as binary fractions with the roundings of multiplication, division and conversion, `Decimal::of` for them, `From<Decimal>` (Model/Float) | the roundings of conversions, products and quotients are shown to give the nearest of all numbers of the type, and an even one of two (`NearestTo`); rounding error lemmas for all numbers; cutting off by the properties of truncated division; refuted by witnesses that the kernel computes |
| C95 | the calls of Model/Pool run alone from any point, and rounds of giving back and polling | a measure that every step of a call lowers; the answer by following the call through all cases; starvation by induction over the rounds |
| C96 | `LZ4_decompress_safe` after the block format, with the CityHash model, as the `Codec` of Model/Compressed (`Model/Lz4`) | a grammar of blocks (`Spec/Lz4`): the decoder inverts it (induction over the sequences) and accepts nothing else (induction over the input) |
| C97 | the error types, their texts, the conversions between `Error` and `io::Error` and the places they pass through (Model/Errors), the table of codes (Model/Codes) | case analysis over the errors; texts by cancelling common parts, hexadecimal and decimal digits are injective; the table is ascending |
| C98 | `OptionsSource`, the setters, `Options::new`, `Pool::new` on a source (Model/Source) on top of the URL and pool models | idempotence of `get`; one generic lemma per option over the chain; parameters one by one; invariants over all executions of a pool that is refused; witness executions |
| C99 | the memory behind `read_to_end`, `try_parse_msg`, `read_bytes`, the buffers lent to LZ4 and the cache of types (Model/Memory): bytes that may be unwritten, length and capacity | invariant of the loop with the transport model as specification; induction over the life of the buffer and over the interned types |
| C100 | nothing new: the composition of the models of the URL, the opening of a connection and the commands | composition of C36, C61, C69, C39; the settings are a list without duplicates by an invariant of `set_params` |
| C101 | `Pool::info`, `Debug for Pool` (`{:?}`): four reads, each in a state of its own | the text by a reader of numbers; the numbers from C49 and the invariant of one thread; witnesses for the rest |
| C102 | `read_uvarint`, `set_scale`, `Decimal::of`, `to_datetime`, `from_datetime`, comparison of times, rows of arrays and maps with decreasing offsets, the string pool, with wrapping arithmetic | the two builds compared step by step; wrapping is the identity exactly on 64-bit numbers; the invariant of the pool carried over; witnesses |
| C103 | the memory of `List<T>` with either byte order, `save_data`, the loading of numbers, the writing of offsets | slices of bytes are slices of numbers, by induction on the column; round trip; exact characterisation; witnesses |
| C104 | the activations of `load_data` at a time, over the plans of the name analysis | induction on the length of the name and on the grammar of C68; family of nested arrays |
| C105 | `read_string` and `ArrayColumnData::load` with `usize` of any number of bits | comparison with the 64-bit readers case by case; exact length of what is read; witnesses for 32 bits |
| C106 | the readers of blocks, columns and texts once more with the memory they ask for; string pools through Model/StringPool | metered readers end as the readers do; a linear bound closed under sequencing; amortised bound on the chunks of a pool (invariant over all strings stored); memory grows with the prefix that has come; a bound from below by the bytes read; families of witnesses |

All properties can be expressed in the model; none is declared not applicable.

## Models and the code they are of

Each definition cites its lines; this is the list by file (`src/` left out). A file may be modelled in part; what is left out is said in the
comments and under "Trusted base". Only `binary/mod.rs`, `io/mod.rs` and `pool/futures/mod.rs`, which declare modules, are cited nowhere.

| module of `Verif/Model` | files of /repo |
|---|---|
| Block | types/block/block_info.rs, types/block/chunk_iterator.rs, types/block/mod.rs, types/column/concat.rs, types/column/mod.rs |
| Calendar | types/date_converter.rs, types/from_sql.rs, types/value.rs, types/value_ref.rs |
| Cancel | io/transport.rs, lib.rs, retry_guard.rs, types/query_result/mod.rs, types/query_result/stream_blocks.rs |
| Cast | types/block/mod.rs, types/column/array.rs, types/column/chrono_datetime.rs, types/column/chunk.rs, types/column/column_data.rs, types/column/date.rs, types/column/datetime64.rs, types/column/decimal.rs, types/column/enums.rs, types/column/fixed_string.rs, types/column/ip.rs, types/column/low_cardinality.rs, types/column/map.rs, types/column/mod.rs, types/column/nullable.rs, types/column/numeric.rs, types/column/simple_agg_func.rs, types/column/string.rs, types/mod.rs |
| City | clickhouse-rs-cityhash-sys/src/cc/city.cc, clickhouse-rs-cityhash-sys/src/cc/city.h, clickhouse-rs-cityhash-sys/src/lib.rs |
| Client | errors/mod.rs, io/transport.rs, lib.rs, pool/mod.rs, retry_guard.rs, types/block/chunk_iterator.rs, types/block/mod.rs, types/query_result/mod.rs, types/query_result/stream_blocks.rs |
| Cmd | client_info.rs, types/block/mod.rs, types/cmd.rs, types/mod.rs, types/options.rs, types/query.rs |
| Codes | errors/codes.rs |
| Column | types/column/array.rs, types/column/chrono_datetime.rs, types/column/chunk.rs, types/column/column_data.rs, types/column/concat.rs, types/column/date.rs, types/column/datetime64.rs, types/column/decimal.rs, types/column/enums.rs, types/column/factory.rs, types/column/fixed_string.rs, types/column/ip.rs, types/column/list.rs, types/column/low_cardinality.rs, types/column/map.rs, types/column/nullable.rs, types/column/numeric.rs, types/column/simple_agg_func.rs, types/column/string.rs, types/column/util.rs, types/date_converter.rs, types/from_sql.rs, types/value.rs, types/value_ref.rs |
| Compressed | binary/read_ex.rs, types/block/compressed.rs, types/block/mod.rs |
| Connect | connecting_stream.rs, errors/mod.rs, io/stream.rs, lib.rs, types/options.rs |
| Cursor | types/column/iter/mod.rs, types/column/low_cardinality.rs, types/column/mod.rs |
| Decimal | types/decimal.rs |
| Demand | binary/read_ex.rs, types/block/mod.rs, types/column/mod.rs, types/column/numeric.rs, types/column/string.rs, types/column/string_pool.rs |
| Endian | types/column/array.rs, types/column/date.rs, types/column/list.rs, types/column/map.rs, types/column/numeric.rs, types/marshal.rs, types/unmarshal.rs |
| Equal | types/block/mod.rs, types/column/mod.rs |
| Errors | binary/parser.rs, binary/read_ex.rs, connecting_stream.rs, errors/mod.rs, io/transport.rs, lib.rs, types/block/compressed.rs, types/query_result/stream_blocks.rs |
| Fetch | types/block/row.rs, types/query_result/mod.rs |
| Float | types/column/decimal.rs, types/decimal.rs |
| From | types/column/chrono_datetime.rs, types/column/date.rs, types/column/decimal.rs, types/column/enums.rs, types/column/ip.rs, types/column/map.rs, types/column/numeric.rs, types/column/string.rs, types/date_converter.rs, types/value.rs |
| Info | pool/mod.rs |
| Insert | lib.rs |
| Into | types/mod.rs, types/value.rs |
| Iter | types/column/array.rs, types/column/chrono_datetime.rs, types/column/column_data.rs, types/column/date.rs, types/column/datetime64.rs, types/column/decimal.rs, types/column/fixed_string.rs, types/column/ip.rs, types/column/iter/mod.rs, types/column/low_cardinality.rs, types/column/map.rs, types/column/mod.rs, types/column/nullable.rs, types/column/numeric.rs, types/column/simple_agg_func.rs, types/column/string.rs |
| Levels | types/column/iter/mod.rs, types/column/mod.rs, types/mod.rs |
| Load | types/column/array.rs, types/column/date.rs, types/column/datetime64.rs, types/column/decimal.rs, types/column/enums.rs, types/column/factory.rs, types/column/fixed_string.rs, types/column/ip.rs, types/column/low_cardinality.rs, types/column/map.rs, types/column/nullable.rs, types/column/numeric.rs, types/column/simple_agg_func.rs, types/column/string.rs, types/column/string_pool.rs |
| Log | lib.rs, types/mod.rs, types/options.rs |
| Lz4 | types/block/compressed.rs, types/block/mod.rs |
| Memory | binary/read_ex.rs, io/read_to_end.rs, io/stream.rs, io/transport.rs, types/block/compressed.rs, types/block/mod.rs, types/column/date.rs, types/column/datetime64.rs, types/column/numeric.rs, types/mod.rs |
| Narrow | binary/read_ex.rs, types/block/mod.rs, types/column/array.rs |
| Options | errors/mod.rs, types/options.rs |
| Oversize | types/block/mod.rs |
| Parser | binary/parser.rs, binary/protocol.rs, errors/mod.rs, io/transport.rs, types/mod.rs |
| Pool | io/transport.rs, lib.rs, pool/futures/get_handle.rs, pool/mod.rs |
| PoolDrop | io/transport.rs, pool/futures/get_handle.rs, pool/mod.rs |
| PoolUse | pool/mod.rs, retry_guard.rs, types/query_result/stream_blocks.rs |
| Release | binary/read_ex.rs, pool/mod.rs, types/column/array.rs, types/column/datetime64.rs, types/column/iter/mod.rs, types/column/map.rs, types/decimal.rs, types/value.rs |
| ReleasePool | binary/read_ex.rs, types/column/string.rs, types/column/string_pool.rs |
| Reopen | lib.rs, pool/mod.rs, retry_guard.rs, types/query_result/mod.rs |
| Rows | lib.rs, types/block/builder.rs, types/block/mod.rs, types/block/row.rs, types/column/mod.rs |
| Share | types/block/mod.rs, types/column/array.rs, types/column/chrono_datetime.rs, types/column/chunk.rs, types/column/concat.rs, types/column/date.rs, types/column/datetime64.rs, types/column/decimal.rs, types/column/enums.rs, types/column/factory.rs, types/column/fixed_string.rs, types/column/ip.rs, types/column/low_cardinality.rs, types/column/map.rs, types/column/mod.rs, types/column/nullable.rs, types/column/numeric.rs, types/column/simple_agg_func.rs, types/column/string.rs |
| Show | types/block/mod.rs, types/enums.rs, types/value.rs, types/value_ref.rs |
| Socket | io/transport.rs, lib.rs, retry_guard.rs, types/query_result/mod.rs, types/query_result/stream_blocks.rs |
| Source | pool/mod.rs, types/options.rs |
| SqlType | types/column/enums.rs, types/column/factory.rs, types/column/ip.rs, types/column/list.rs, types/decimal.rs, types/mod.rs, types/stat_buffer.rs |
| Stack | types/column/array.rs, types/column/decimal.rs, types/column/enums.rs, types/column/factory.rs, types/column/low_cardinality.rs, types/column/map.rs, types/column/nullable.rs, types/column/simple_agg_func.rs |
| StringPool | binary/read_ex.rs, types/column/string.rs, types/column/string_pool.rs |
| Transport | io/read_to_end.rs, io/stream.rs, io/transport.rs, types/mod.rs |
| Value | types/column/datetime64.rs, types/column/ip.rs, types/column/map.rs, types/value.rs, types/value_ref.rs |
| Values | types/from_sql.rs, types/value.rs, types/value_ref.rs |
| Wire | binary/encoder.rs, binary/read_ex.rs, binary/uvarint.rs, types/column/list.rs, types/column/nullable.rs, types/column/string_pool.rs, types/marshal.rs, types/unmarshal.rs |

## Agreement with the project's own unit tests

`Verif/Conform/{Texts,Data,Values}.lean` transcribe the unit tests of /repo/src as `example`s about the model, checked by the kernel.
`Conform/Trips.lean` does the same for the integration tests (/repo/tests/clickhouse.rs), as far as they are about values: insert,
select, read; the server keeps the bytes of a column and sends them back under the table's type. They show that the model gives the answers the project's authors wrote down; they are tests of fidelity, not claims, and no theorem
depends on them. Left out: tests of queries, connections and the
pool that need a server (`client_info.rs`, most of `pool/mod.rs`, the rest of `tests/`), `size_of`, `List` (a thin
wrapper around `Vec`), the random round trips of `marshal.rs` and `value.rs` (C04 and C75 are about all values), the texts of errors,
and the `tls` feature. `test_decompress` and `test_decompress_block` are in `Props/Lz4.lean` and `Props/City.lean`.

## Where the code disagrees with a property

Each is proved as a theorem ending in `_violated` (a concrete witness or a general statement); the rest of the property is
kept as a `_partial` theorem.

- C02: eleven bytes with the continuation bit overflow a shift and panic (uvarint.rs, read_ex.rs).
- C07: the client does not read the "nested exception" flag that ends a server exception; the byte stays in the buffer.
- C09, C10: `save` of DateTime64 (and of local date-time columns) is unimplemented.
- C11: the sizes given to LZ4 are cast to `i32` and its result is not checked: for a block of more than 2113929216 bytes the frame
  is sent without data (`C11_large_violated`), for one of 2^32 + k bytes with the first k only (`C11_wrapped_violated`); frames over
  1 GiB are written although no reader takes them (`C11_incompressible_violated`).
- C12: a frame announcing a size below 9 with a matching checksum panics (subtraction underflow).
- C13: a frame that decompresses to no bytes makes the reader wait although data is there.
- C14, C15: map key types with commas, SimpleAggregateFunction of parametrised types, enum names with quotes; bare keywords
  and non-ASCII map types panic.
- C16: the only chunk of a block with columns but no rows has no columns; chunk size zero never ends.
- C17: saving a later chunk of an array or map column repeats offsets of the whole column.
- C21: received low-cardinality columns with large dictionaries truncate indices when saved; nullable dictionaries panic;
  FixedString dictionaries hold duplicates.
- C26: FixedString(0) divides by zero.
- C59: Enum8 numbers from 128 to 32767 are wrapped.
- C35: a backslash in a column name escapes the closing backquote; the empty name and names of non-digit numeric characters
  are sent unquoted.
- C36: parameter values are percent-decoded by the url crate and again by the client.
- C38: the query id given by the user is not sent (the server gets the empty id); a setting whose name is empty ends the
  settings list early.
- C42: messages read in the same poll that sees the end of the connection are not delivered (the transport reports the end
  without parsing its buffer once more).
- C58: an insert or execute timeout of none becomes a limit of zero.
- C18: an INSERT without rows sends the empty block that ends the data twice.
- C46: with `ping_before_query` off, `stream_blocks_` does not call `clear`, and a query can read the leftovers of an earlier one.
- C47: `hello`, `execute_`, `read_block` and `clear` unwrap a value that is only set by a packet: a closed connection panics.
- C51: a successful reconnection is not counted as an attempt, so the check has no bound when pings keep failing.
- C52: a query that ends in an exception or a lost connection, and a failed check, leave the handle detached; the next `detach`
  hits `unreachable!`. Handles opened without a pool panic in the first query.
- C48: with overlapping calls the pool exceeds its maximum: a future being polled is in no queue, and a connection taken from the
  idle store is not yet counted. `conn_count` also reads its three counters one after the other: with two calls overlapping, four
  connections are handed out of a pool of two (`C48_twice_violated`).
- C49: with overlapping calls two connections can become ready for the last place in the idle store; `unwrap` panics, and the
  handle dropped by the panic decrements the in-use counter below zero.
- C50: a failed connection attempt is reported to the task that polled last and nobody else is woken, so another waiting task can
  wait for ever, even on one thread; with overlapping calls a connection given back between the count and the registration of the
  waker is missed too.
- C53: the counter wraps around after 2⁶⁴ connections, which breaks the rotation unless the number of hosts divides 2⁶⁴.
- C30: comparing or raising the scale of decimals overflows `i64` (panic; without overflow checks a wrong answer); 0.2 and 0.20
  are equal but hash differently; `Decimal::of` truncates the power of ten to the source type (`of(2_i8, 4)` is 0.0032).
- C31: every decimal strictly between −1 and 0 prints wrongly (`0.-5`, `-.5`); scale 0 prints a stray point.
- C54: a chrono timestamp cannot be converted to an owned value (panic), nor can a map whose keys are neither numbers nor strings
  (dates, say), because building the owned hash map hashes the keys.
- C55: borrowed `Bool`, IPv4, IPv6 and UUID values and owned maps are never equal to themselves (the comparison has no arm for
  them); comparing `DateTime64` values before 1970 with a fraction panics; with a precision of 19 or more all are equal.
- C56: hashing panics for most kinds of values, `Date` among them, though the type parser accepts `Map(Date, …)`: reading a cell of
  such a column panics.
- C57: arrays of `LowCardinality(String)` or `FixedString` cannot be read as `Vec<String>` although the cells alone can be read as
  `String`; NULL reads as an option of any type and an empty map as a map of any types; `DateTime64` outside the range panics.
- C20 holds, but a string length above `isize::MAX` or a row count the pool cannot reserve room for, sent by the server, panics
  ("capacity overflow") while receiving.
- C32: `put_param` works value by value: a row without some column, with a new name (if it comes first and the block has at most one
  row) or with a repeated name is accepted and leaves columns of different lengths; a row rejected because of a new name leaves
  the values before it in the block; a value of the wrong type panics.
- C33: a row number or column position outside the block panics.
- C34: text that is not an address panics; strings longer than a `FixedString` are cut; decimals too large for the target wrap
  around or panic while writing; enums are sent by number, so names change if the table numbers them differently; text sent to a
  `LowCardinality` of another type panics; `LowCardinality(DateTime64)` panics while writing; a local `Map(String, DateTime)`
  column is refused by a table of that very type. The text parsers of addresses are a parameter of the model (standard library).
- C23: the date iterator yields the previous day west of UTC; dates, times and low cardinality inside arrays or nullables and
  columns built from `Vec<DateTime<Tz>>` cannot be iterated; a NULL flag byte other than 0 and 1 is NULL for the iterator and a
  value for `at`; the address and UUID iterators do not look at the column type and can run over the end of the buffer; an index
  beyond the dictionary makes the date iterator read outside it; an iterator of the wrong type over several blocks put together
  panics. The zone database is a parameter (`Zones`); reading memory of another kind or out of bounds is the outcome `wild`.
- C23: the layers of a type are counted in `u8` (`SqlType::level`); with more than 255 layers the count overflows and no
  iterator can be made (`C23_deep_violated`, `C23_depth_violated`).
- C24: maps deeper than one array around a chain of maps read their keys from the value storage (`{"a": [{1: 2}]}` comes out as
  `{"a": [{2: 2}]}`), or take memory of another kind for keys; fixed-string keys are read from the values; array keys use the
  offsets of the map.
- C64: decimals of different scales panic in `column_from`; times lose their fraction and wrap around outside 1970-2106; maps
  with `bool` keys panic.
- C28: dates out of range are replaced modulo 65536 days; iteration west of UTC yields the previous day.
- C29: a fraction of a second before 1970 panics on reading, or is rounded forward when beyond the precision; times outside 64
  bits of nanoseconds panic whatever the precision; `DateTime` wraps around outside 1970-2106.
- C61: `get_database_from_url` does not undo percent-encoding, unlike the user name and the password: a database whose name has a
  space or a non-ASCII character cannot be named in the URL.
- C65: `fetch_all` of a statement without result columns panics in `Block::concat` (assertion on an empty list) after the statement
  has succeeded.
- C66: the streams drop the first block without looking whether it has rows.
- C67: `clone_instance` of nullable, array, map, aggregate-function and low-cardinality columns copies the reference to the inner column,
  and `push` then needs that inner column unshared: after `block.clone()`, appending a row with such a column to either block panics
  (`Arc::get_mut(..).unwrap()`), until the other block is dropped. Low-cardinality columns still take values they already have.
- C62: a handle made by `Client::open` for the pool is put into `idle` with the binding `Detached(pool)`, and the future in `new` owns
  `Some(self.clone())`: the pool refers to itself. A connection that becomes open while another has been returned meanwhile stays in
  `idle` that way, and an opening whose `GetHandle` was dropped (time-out) stays in `new`: when the user then drops everything `Inner`
  is never freed and the sockets stay open.
- C68: the brackets of `Nullable`, `FixedString`, `Array` and `Map` are skipped by position without being looked at, text after the
  closing parenthesis of decimals and low-cardinality types is ignored, and `Decimal32(s)`/`Decimal64(s)` take any scale below 256.
- C69: in a build without the feature `tls` (the default) a URL with `secure=true` is accepted, `secure` becomes a server setting, and the
  connection is plain. With TLS, an address on which the handshake fails ends the attempt though others are left.
- C71: a `Progress` or `ProfileInfo` packet during an INSERT ends it with `UnexpectedPacket`, though the server continues; `read_block` only
  passes over `TableColumns`. An exception in the rest of an abandoned answer becomes the error of the next operation (`C71_clear`).
- C72: `From<i32>`/`From<i64>` for `SettingType` cast with `as u64`, so `-1` is sent as 18446744073709551615. Settings of a URL are always text;
  a server before revision 54429 that expects a number reads the length of the text as the value and the text as the next setting.
- C73: with a dictionary that lacks an entry `nth` passes over the row that `next` panics on.
- C63: a length of 2^63 or more, a row count or array offset times the width beyond `isize::MAX`, the type `FixedString(0)`, low-cardinality flags without the update bit, and a low-cardinality column whose rows are not the block's make the client panic; the first of them works before the handshake is over.
- C74: a time, an enum and a map have different texts as `Value` and as `ValueRef`; no text of an enum shows its name; a time before 1970 with a fraction of a second panics; the table of a block without columns is ragged.
- C75: dates and UTC times out of range silently become others; `[u8; 4]` is stored in the order given although addresses are stored backwards, so 127.0.0.1 is read as 1.0.0.127; maps keyed by `bool` or `DateTime<Tz>` panic, date keys 65536 days apart merge.
- C76: the version word of a `LowCardinality` inside an array or map is read and written after the offsets, servers put it before them; the dictionary of `LowCardinality(Nullable(T))` is read and written with NULL flags, servers use position 0; `DateTime64` columns cannot be written; a map whose keys are neither integers nor strings arrives, and then reading any of its cells that has an entry panics (`C76_other_keys_violated`, for all such types).
- C83: `Client::open` logs the address with the user name and password of the URL (src/lib.rs:277), and `hello` logs the context, whose `Debug` shows the address again, although `Debug` of `Options` was written to leave the password out.
- C85: an operation that is dropped, or whose time is over, while its connection is checked leaves its handle detached from the pool; the next operation panics in `detach` (`unreachable!`). `execute_timeout` and `insert_timeout` cover the check, so this needs no cancellation by the user.
- C86: a task may panic because of what another left: an abandoned query's connection goes to the pool marked as inconsistent, and if the server closes it before the end of the answer, the check of the next task that gets it panics (`h.unwrap()` in `clear`, /repo/src/io/transport.rs:122) instead of reconnecting.
- C88: two handles dropped at the same time are both kept although only one place below the minimum is free: the length of the queue is read (/repo/src/pool/mod.rs:262) before the handle is pushed (263). `C88_minimum_violated`.
- C90: as C28, in terms of calendar dates: dates out of range are replaced by other dates, iteration west of UTC gives the day before. `C90_range_violated`, `C90_west_violated`.
- C93: `execute` and `insert` copy the context (and with it the server's revision) before the check; if the check has reconnected to a server of another revision, the statement is written for the old one: the fields of the client info that depend on the revision are missing or in excess, and the server reads the statement wrongly (`C93_execute_violated`, `C93_insert_violated`). Queries copy the context after the check and are right (`C93_query`).
- C94: `Decimal::of(0.29, 2)` is 0.28: the product `0.29 * 100.0` is rounded to a number below 29 and then cut off (`C94_of_violated`); the same happens to a Decimal that is turned into an `f64` and back (`C94_round_trip_violated`, never by more than one unit for up to 15 digits, `C94_round_trip_partial`). For `f32` the factors from `10^11` on are rounded (`C94_single_violated`). Only the upper bound is checked: too low numbers and minus infinity become `i64::MIN`, NaN becomes 0 (`C94_negative_violated`, `C94_nan_violated`). The way back rounds twice: the decimal 900719925474099.5 is a number of `f64` but becomes 900719925474099.625 (`C94_quotient_violated`).
- C95: waiting tasks are not served in turn: `return_conn` wakes all of them and the first to poll takes the connection, even if it is a task that has not waited; a task can be woken any number of times and find nothing (`C95_starves_violated`).
- C96: the number of bytes that LZ4 wrote is not compared with the announced size: a frame that announces more than it holds is read with zeros for the rest (`C96_short_violated`).
- C97: errors pass through `io::Error` between the parser and the caller, `From<Error> for io::Error` keeps only the text: `DriverError::UnknownPacket`, `Overflow` or "data was corrupted" reach the caller as `Error::Io` of kind `Other` (`C97_kind_violated`). The text of a server exception does not determine it (`C97_server_violated`).
- C98: in a pool whose URL cannot be read, a call of `get_handle` that overlaps with another one may find the place for futures taken; it then waits and is never woken, because the failing call wakes nobody (`C98_bad_url_violated`). `pool_max=0` is accepted everywhere but `ArrayQueue::new(0)` panics (`C98_no_maximum_violated`).
- C99: `VectorColumnData::<bool>::load` reads the server's bytes into a vector of `bool`; a byte other than 0 and 1 is not a value of `bool`, and having it is undefined behaviour (`C99_bool_violated`).
- C99: `Block::write` lends LZ4 its buffer from the ninth byte on but tells it the size of the whole buffer; an LZ4 that used that room would write nine bytes behind the end (`C99_capacity_violated`). LZ4 keeps to `LZ4_compressBound`, which is the hypothesis of `C99_compress_partial`.
- C100: inherits C61 (escaped database names), C72 (URL settings on servers before revision 54429) and C38 (nameless parameters).
- C101: the four numbers of `Pool::info` are read one after the other (pool/mod.rs:178-185): while a call is in progress a connection may be counted twice or not at all. After the panic of C49 the number in use is 18446744073709551615. A task that is polled again while it waits is counted again.
- C102: without overflow checks the products of decimals (decimal.rs:72-139, 244-263) and times (datetime64.rs:135, value.rs:141) wrap around and give other numbers; precisions from 10 to 18 make every time 1970; a row of an array or map whose offset goes back far enough is read as empty instead of a panic (array.rs:94, map.rs:104).
- C103: numbers in columns are sent and read as raw memory (list.rs:75-97), so on a big-endian machine all but symmetric numbers are wrong, and offsets of arrays and maps (written with `to_le_bytes`, read raw) do not even agree with themselves.
- C104: nothing limits the nesting of types (factory.rs:58-116): a block without rows whose type name is some megabytes of `Array(` makes `load_data` recur until the stack ends.
- C105: where `usize` has 32 bits, `as usize` (read_ex.rs:54, array.rs:36) cuts announced lengths and offsets off: the rest of a text or array is taken for what comes next.
- C106: memory is asked for before the data is there (read_ex.rs:55, list.rs:34-38, nullable.rs:30, string_pool.rs:54-61): a few bytes from the server make the client ask for any amount of memory, which ends the process if there is not as much; and each piece of a message that comes makes the client read it, and take its memory, from the beginning.
