{"id": "C01", "title": "Variable-length integers survive the wire", "statement": "Every 64-bit length or number the client writes as a variable-length integer is read back as the same number, consuming exactly the bytes written (at most 10), whatever bytes follow it.", "quantifier": "every 64-bit unsigned value and every byte string following it", "why_tests_cant": "2^64 values times arbitrary suffixes; tests sample a handful.", "anchors": ["src/binary/uvarint.rs: put_uvarint", "src/binary/encoder.rs: Encoder::uvarint", "src/binary/read_ex.rs: ReadEx::read_uvarint"]}
{"id": "C02", "title": "Hostile variable-length integers are rejected, not mis-read and not fatal", "statement": "Reading a variable-length integer from arbitrary bytes either asks for more data, reports overflow, or yields the base-128 value of the bytes consumed, which fits 64 bits; it never panics and never returns a wrapped value.", "quantifier": "every byte string a server or attacker can send", "why_tests_cant": "The input space is unbounded; the failing inputs (11 or more continuation bytes) are not produced by a well-behaved server.", "anchors": ["src/binary/read_ex.rs: ReadEx::read_uvarint"]}
{"id": "C03", "title": "Strings survive the wire", "statement": "A length-prefixed string written by the client is read back byte for byte and leaves the following bytes untouched; reading text that is not valid UTF-8 is an error and never a damaged string; skipping a string consumes exactly what reading it would.", "quantifier": "every byte string of every length and every suffix", "why_tests_cant": "Unbounded lengths (including ones crossing the 1024-byte skip buffer) and contents.", "anchors": ["src/binary/encoder.rs: string, byte_string", "src/binary/read_ex.rs: read_string, skip_string, read_str_into_buffer"]}
{"id": "C04", "title": "Fixed-width numbers survive the wire", "statement": "Every boolean, signed or unsigned integer of 8 to 128 bits and every 32/64-bit float bit pattern is written in little-endian order with exactly its width and is read back as the same value.", "quantifier": "every value of every fixed-width type and every suffix", "why_tests_cant": "Exhausting 2^128 values is impossible.", "anchors": ["src/types/marshal.rs", "src/types/unmarshal.rs", "src/types/stat_buffer.rs", "src/binary/encoder.rs: write", "src/binary/read_ex.rs: read_scalar"]}
{"id": "C05", "title": "A message that has not fully arrived is never misread", "statement": "If the bytes received so far are only the beginning of a server message, decoding asks for more data; if decoding succeeds or fails on some bytes, it gives the same answer and consumes the same bytes when more bytes follow. Hence no packet is ever decoded differently because of where the network split it.", "quantifier": "every byte string, every split point, every connection state (timezone, revision, compression)", "why_tests_cant": "Every split point of every possible message cannot be enumerated.", "anchors": ["src/binary/parser.rs: Parser::parse_packet", "src/io/transport.rs: try_parse_msg", "src/binary/read_ex.rs", "src/errors/mod.rs: is_would_block"]}
{"id": "C06", "title": "Block header round trip", "statement": "The block information header (overflow flag, bucket number) written by the client is read back unchanged for all values, and unknown header fields are reported as errors.", "quantifier": "every flag and bucket number, every suffix; every unknown field number", "why_tests_cant": "2^32 bucket numbers and arbitrary field identifiers.", "anchors": ["src/types/block/block_info.rs: BlockInfo::read, BlockInfo::write"]}
{"id": "C07", "title": "Server messages are decoded according to the negotiated revision", "statement": "For every revision, a Hello, Progress, ProfileInfo, TableColumns, Pong, EndOfStream or Exception message laid out as the protocol of that revision prescribes is decoded to exactly the fields sent, consuming exactly its bytes (optional fields are present exactly from revisions 51554, 54058, 54372, 54401, 54420 on).", "quantifier": "every revision number, every field value, every suffix", "why_tests_cant": "Tests use one or two recorded server versions.", "anchors": ["src/binary/parser.rs", "src/binary/protocol.rs"]}
{"id": "C08", "title": "Unknown or premature messages are errors", "statement": "A message whose number is not one the client knows is reported as an unknown-packet error carrying that number, and a data message that arrives before the server's hello is an error; neither yields a packet.", "quantifier": "every packet number and every payload", "why_tests_cant": "2^64 packet numbers.", "anchors": ["src/binary/parser.rs: parse_packet, parse_block"]}
{"id": "C09", "title": "Column data survives the wire", "statement": "For every supported column type, however nested (nullable, array, map, low-cardinality, aggregate wrapper), writing all rows of a column and reading them back with the same type and row count gives a column with the same values row by row and consumes exactly the bytes written.", "quantifier": "every column type tree, every number of rows, every value, every suffix", "why_tests_cant": "Type trees and row counts are unbounded.", "anchors": ["src/types/column/mod.rs: Column::read, Column::write", "src/types/column/factory.rs: load_data", "src/types/column/{numeric,string,fixed_string,nullable,array,map,low_cardinality,ip,date,enums,decimal,simple_agg_func}.rs: load, save"]}
{"id": "C10", "title": "Blocks survive the wire", "statement": "A block written by the client and read back has the same column names, types, order, row count and values, and the bytes after the block are untouched.", "quantifier": "every block: any number of columns and rows, any names, types and values", "why_tests_cant": "Unbounded shapes.", "anchors": ["src/types/block/mod.rs: Block::write, Block::load, raw_load"]}
{"id": "C11", "title": "Compressed blocks survive the wire", "statement": "With compression enabled a block written by the client and read back is the same block, for every lossless compressor, and the bytes after the frame are untouched.", "quantifier": "every block, every lossless compressor/decompressor pair and checksum function", "why_tests_cant": "Unbounded blocks; the property must hold for all compressor outputs.", "anchors": ["src/types/block/mod.rs: Block::write", "src/types/block/compressed.rs: make, CompressedReader, decompress_buffer"]}
{"id": "C12", "title": "Corrupted compressed data is never delivered", "statement": "A compressed frame is turned into data only if its stored 128-bit checksum equals the checksum of the frame, its method byte is the LZ4 one and its announced size is at most 1 GiB; otherwise reading fails. No frame, however malformed, makes the reader panic.", "quantifier": "every byte string presented as a compressed frame", "why_tests_cant": "Malformed frames are unbounded in number.", "anchors": ["src/types/block/compressed.rs: decompress_buffer"]}
{"id": "C13", "title": "Compressed framing is transparent", "statement": "A block is decoded to the same result no matter how the server cut its bytes into compressed frames.", "quantifier": "every block, every cut of its bytes into non-empty frames", "why_tests_cant": "Exponentially many ways to cut a message.", "anchors": ["src/types/block/compressed.rs: CompressedReader::read, fill"]}
{"id": "C14", "title": "Column type names round trip", "statement": "The type name the client writes for a column is understood by its own reader as the same type.", "quantifier": "every column type tree", "why_tests_cant": "Infinitely many type trees; parametric and nested names interact.", "anchors": ["src/types/mod.rs: SqlType::to_string", "src/types/column/factory.rs: parse_*"]}
{"id": "C15", "title": "Unsupported column types are errors, never crashes", "statement": "Whatever type name a server announces, the client either handles it or returns an unsupported-type error; it never panics.", "quantifier": "every string as a type name", "why_tests_cant": "Arbitrary strings.", "anchors": ["src/types/column/factory.rs: load_data, parse_fixed_string, parse_nullable_type, parse_array_type, parse_map_type"]}
{"id": "C16", "title": "Chunking a block keeps every row exactly once", "statement": "Splitting a block into chunks of n>0 rows yields blocks that all have the same columns, at most n rows each (exactly n except the last), and whose rows in order are exactly the rows of the block.", "quantifier": "every block (any columns, any number of rows) and every chunk size n>0", "why_tests_cant": "Unbounded row counts and chunk sizes.", "anchors": ["src/types/block/chunk_iterator.rs: ChunkIterator::next", "src/types/block/mod.rs: chunks", "src/types/column/chunk.rs"]}
{"id": "C17", "title": "Writing a chunk writes exactly the chunk's rows", "statement": "The bytes written for a chunk (a row range) of a column, read back, give exactly the values of those rows, for every column type.", "quantifier": "every column type, every row range", "why_tests_cant": "Ranges that do not start at row 0 arise only for INSERTs of more than 1 048 576 rows.", "anchors": ["src/types/column/chunk.rs: ChunkColumnData::save", "src/types/column/*.rs: save(start,end)"]}
{"id": "C18", "title": "INSERT sends each row once and ends each data stream once", "statement": "For an INSERT, the sequence of messages on the wire is, for each chunk, the INSERT query, the chunk's non-empty data, and exactly one empty block ending the data; together the chunks contain every row exactly once in order.", "quantifier": "every block size (including empty blocks)", "why_tests_cant": "Row counts are unbounded and the multi-chunk path starts above one million rows.", "anchors": ["src/lib.rs: insert, insert_, insert_block_, insert_tail_", "src/types/block/mod.rs: INSERT_BLOCK_SIZE"]}
{"id": "C19", "title": "Concatenating result blocks preserves rows", "statement": "The block assembled from the blocks of a result has as many rows as all of them together and its i-th row is the i-th row of their concatenation, even when some blocks have zero rows.", "quantifier": "every list of blocks with the same columns, every row index", "why_tests_cant": "Arbitrary numbers and sizes of blocks.", "anchors": ["src/types/block/mod.rs: Block::concat", "src/types/column/concat.rs: build_index, find_chunk, at", "src/types/query_result/mod.rs: fetch_all"]}
{"id": "C20", "title": "String storage returns what was stored", "statement": "After any sequence of string insertions into a string column, reading row i returns exactly the i-th inserted bytes; later insertions never change earlier rows and never overlap them.", "quantifier": "every sequence of insertions of any lengths, every initial capacity", "why_tests_cant": "Chunk-boundary behaviour depends on all previous lengths.", "anchors": ["src/types/column/string_pool.rs: StringPool", "src/types/column/string.rs"]}
{"id": "C21", "title": "Low-cardinality columns behave like plain columns", "statement": "A low-cardinality column built by pushing values returns row i as the i-th pushed value, regardless of repetitions and of index width changes; the stored dictionary has no duplicates.", "quantifier": "every sequence of pushes, of any length, also across the 255 and 65535 row boundaries, also onto a column received from the server", "why_tests_cant": "The index width changes at specific sizes; interaction with loaded dictionaries is history dependent.", "anchors": ["src/types/column/low_cardinality.rs: LowCardinalityColumnData, LowCardinalityIndex"]}
{"id": "C22", "title": "Nullable columns keep nulls and values aligned", "statement": "After any sequence of pushes of values and NULLs to a nullable column, row i reads as NULL exactly if the i-th push was NULL and otherwise as the pushed value.", "quantifier": "every sequence of pushes", "why_tests_cant": "Unbounded histories.", "anchors": ["src/types/column/nullable.rs: push, at, load, save"]}
{"id": "C23", "title": "Typed iteration and indexed access agree", "statement": "Iterating a column with its typed iterator yields, in order, exactly the values that indexed access returns, one per row.", "quantifier": "every column (numeric, string, nullable, array, map, date, ip, uuid) whether built locally or received", "why_tests_cant": "Two independent code paths over unbounded data, incl. bytes only a server would send.", "anchors": ["src/types/column/iter/mod.rs", "src/types/column/*.rs: at, get_internal"]}
{"id": "C24", "title": "Iterating nested maps yields the map's own keys", "statement": "For every nesting of maps, arrays and nullables, the iterator over a map-typed value reads the keys from that map's key storage and the values from its value storage.", "quantifier": "every type tree", "why_tests_cant": "Infinitely many nestings.", "anchors": ["src/types/column/iter/mod.rs: HashMap Iterable", "src/types/column/map.rs: get_internal", "src/types/mod.rs: level, map_level"]}
{"id": "C25", "title": "Array and map columns return the pushed elements", "statement": "After any sequence of pushes of arrays (or maps) row i reads as the i-th pushed array (or the entries of the i-th pushed map), including empty ones.", "quantifier": "every sequence of pushes of arrays/maps of any lengths", "why_tests_cant": "Offsets accumulate over the whole history.", "anchors": ["src/types/column/array.rs: push, at", "src/types/column/map.rs: push, at"]}
{"id": "C26", "title": "Fixed-length strings are padded or cut to the declared width", "statement": "A value stored in a FixedString(n) column reads back as its first n bytes, padded with zero bytes to exactly n; rows do not influence each other.", "quantifier": "every width, every sequence of values of any lengths", "why_tests_cant": "Unbounded lengths and histories.", "anchors": ["src/types/column/fixed_string.rs: push, at, FixedStringAdapter::save, NullableFixedStringAdapter::save"]}
{"id": "C27", "title": "Addresses and UUIDs keep their identity", "statement": "An IPv4 or IPv6 address or a UUID stored in a column and read back (by typed access or by iteration) is the same address or UUID, and its wire form is the one the server uses (reversed octets for IPv4, each half reversed for UUID).", "quantifier": "every 4- or 16-byte value", "why_tests_cant": "2^128 values.", "anchors": ["src/types/column/ip.rs", "src/types/value.rs: decode_ipv4, decode_ipv6", "src/types/from_sql.rs", "src/types/column/iter/mod.rs: Ipv4Iterator, UuidIterator"]}
{"id": "C28", "title": "Dates keep their day", "statement": "A calendar date stored in a Date column and read back is the same date whether read by typed access or by iteration, for every date the type can represent and every server timezone; dates outside the representable range are not silently replaced by others.", "quantifier": "every date, every timezone offset", "why_tests_cant": "65536 days times all timezones, plus out-of-range dates.", "anchors": ["src/types/date_converter.rs", "src/types/value.rs: From<NaiveDate>", "src/types/from_sql.rs: FromSql for NaiveDate", "src/types/column/iter/mod.rs: DateIterator"]}
{"id": "C29", "title": "Sub-second timestamps keep their value at the declared precision", "statement": "A timestamp stored with precision p and read back differs from the original only by dropping digits beyond p, for every instant before or after 1970, and never panics.", "quantifier": "every instant, every precision 0..9", "why_tests_cant": "2^64 instants.", "anchors": ["src/types/column/datetime64.rs: from_datetime, to_datetime, to_datetime_opt"]}
{"id": "C30", "title": "Decimal arithmetic helpers are exact", "statement": "Two decimals compare equal exactly when they denote the same number; raising the scale preserves the number; lowering it truncates toward zero; equal decimals hash equally.", "quantifier": "every underlying integer and scale", "why_tests_cant": "2^64 values x 19 x 19 scales.", "anchors": ["src/types/decimal.rs: PartialEq, set_scale, of, Hash"]}
{"id": "C31", "title": "Decimal text is the decimal's value", "statement": "Displaying a decimal yields the decimal notation of its exact value.", "quantifier": "every underlying integer (positive or negative) and scale", "why_tests_cant": "Sign/zero-padding interactions over 2^64 values.", "anchors": ["src/types/decimal.rs: decimal2str, Display"]}
{"id": "C32", "title": "Appending rows keeps a block rectangular", "statement": "After appending rows to a block every column has the same number of rows, and row i, column c reads as what the i-th appended row supplied for c; a row that is rejected leaves the block unchanged.", "quantifier": "every sequence of appended rows with any sets of column names and values", "why_tests_cant": "History-dependent: depends on the rows appended before.", "anchors": ["src/types/block/builder.rs: put_param, RowBuilder impls", "src/types/block/mod.rs: push"]}
{"id": "C33", "title": "Column lookup finds the named column or fails", "statement": "Reading a cell or a column by name returns data of the first column with that name, and an unknown name, a row outside the block or a column index outside the block is an error.", "quantifier": "every block, name, and index", "why_tests_cant": "All combinations of indices and names.", "anchors": ["src/types/block/mod.rs: ColumnIdx, get, get_column", "src/types/block/row.rs"]}
{"id": "C34", "title": "Conversion for INSERT preserves values", "statement": "When a block is converted to the column types the server asks for, the result has the same number of rows and each cell holds the same value converted to the target type; if some column cannot be converted the operation fails as a whole.", "quantifier": "every block and every list of target types", "why_tests_cant": "All pairs of types and unbounded data.", "anchors": ["src/types/block/mod.rs: cast_to", "src/types/column/mod.rs: cast_to"]}
{"id": "C35", "title": "Identifiers in INSERT are quoted safely", "statement": "The column list of an INSERT contains, for each column, either an all-digit name as is or the name between backquotes; no column name can end its quoting early and a name containing a backquote is rejected.", "quantifier": "every list of column names", "why_tests_cant": "Arbitrary strings.", "anchors": ["src/lib.rs: make_query, column_name_to_string"]}
{"id": "C36", "title": "Connection URL parameters take effect as written", "statement": "Each recognised URL parameter sets exactly its option, later occurrences override earlier ones, unknown parameters become server settings, malformed values are errors, and options not mentioned keep their defaults.", "quantifier": "every list of parameter/value pairs", "why_tests_cant": "Arbitrary strings and orders.", "anchors": ["src/types/options.rs: set_params, parse_param, from_url"]}
{"id": "C37", "title": "Durations and booleans in URLs are parsed exactly", "statement": "A duration is accepted exactly if it is decimal digits followed by 's' or 'ms' with a value fitting 64 bits, and means that many seconds or milliseconds; 'none' means no timeout.", "quantifier": "every string", "why_tests_cant": "Arbitrary strings.", "anchors": ["src/types/options.rs: parse_duration, parse_opt_duration, parse_compression, parse_hosts"]}
{"id": "C38", "title": "The query message carries the query faithfully", "statement": "The bytes sent for a query, decoded as the server of the negotiated revision decodes them, give back the SQL text, query id, settings and compression flag the user supplied, followed by exactly one empty data block.", "quantifier": "every SQL text, id, settings list, revision, compression flag", "why_tests_cant": "Arbitrary strings and revisions; recorded-session tests fix one.", "anchors": ["src/types/cmd.rs: encode_query, serialize_settings", "src/types/query.rs", "src/types/options.rs: SettingType"]}
{"id": "C39", "title": "Hello, ping, cancel and data messages are well-formed", "statement": "Handshake, ping, cancel and data messages, alone or combined, are decoded by the server as exactly the commands issued, in order.", "quantifier": "every credential strings, every sequence of commands", "why_tests_cant": "Arbitrary strings and sequences.", "anchors": ["src/types/cmd.rs: encode_hello, encode_ping, encode_cancel, encode_data, encode_union", "src/client_info.rs"]}
{"id": "C40", "title": "Outgoing bytes are sent once and in order", "statement": "Whatever sequence of partial writes, would-block results and interleaved new commands happens, the bytes handed to the socket are always a prefix of the concatenation of the encoded commands, and everything has been sent when sending reports completion.", "quantifier": "every sequence of commands and every behaviour of the socket", "why_tests_cant": "Infinitely many write schedules.", "anchors": ["src/io/transport.rs: send, wr_flush, wr_is_empty"]}
{"id": "C41", "title": "Received messages do not depend on network fragmentation", "statement": "The sequence of packets a connection yields is the sequence obtained by decoding the whole received byte stream, however the stream was split into reads and whenever the consumer polled.", "quantifier": "every byte stream, every split into reads, every polling schedule", "why_tests_cant": "Infinitely many schedules.", "anchors": ["src/io/transport.rs: poll_next, try_parse_msg", "src/io/read_to_end.rs"]}
{"id": "C42", "title": "Data received before the connection closes is delivered", "statement": "Every complete message received before the server closes the connection is delivered to the caller before the end of the stream is reported.", "quantifier": "every byte stream and every timing of the close relative to the reads", "why_tests_cant": "Depends on whether close is observed in the same poll as the data.", "anchors": ["src/io/transport.rs: poll_next"]}
{"id": "C43", "title": "No missed wake-up while waiting for the server", "statement": "Whenever a connection reports that it must wait, the socket itself has reported 'not ready' during that same poll (so the task will be woken), and no complete message is sitting undelivered in the buffer.", "quantifier": "every state and schedule", "why_tests_cant": "Schedules are unbounded.", "anchors": ["src/io/transport.rs: poll_next, send"]}
{"id": "C44", "title": "A call yields the connection back exactly once", "statement": "Issuing a command on a connection yields the server's packets in order; the connection is handed back exactly once, with the packet that ends the exchange, and nothing is read from it afterwards.", "quantifier": "every packet sequence and schedule", "why_tests_cant": "Unbounded packet sequences.", "anchors": ["src/io/transport.rs: PacketStream", "src/types/mod.rs: Packet::bind"]}
{"id": "C45", "title": "Query result streams yield exactly the data blocks", "statement": "A query stream yields, in order and once each, the non-empty data blocks the server sent (except the leading header block when it is to be skipped), ends normally exactly at end-of-stream, and reports a server exception or a lost connection as an error.", "quantifier": "every packet sequence the server may send", "why_tests_cant": "Unbounded packet sequences.", "anchors": ["src/types/query_result/stream_blocks.rs: poll_next", "src/types/query_result/mod.rs"]}
{"id": "C46", "title": "Results of one query never leak into another", "statement": "A query on a handle only ever returns blocks the server sent in response to that query, even when an earlier result stream of the same handle was dropped half-read.", "quantifier": "every history of queries, partially consumed streams, executes and pings on a handle", "why_tests_cant": "Depends on the whole history of the connection.", "anchors": ["src/types/query_result/mod.rs: stream_blocks_", "src/types/query_result/stream_blocks.rs: Drop", "src/io/transport.rs: clear", "src/lib.rs: check_connection, execute_, insert"]}
{"id": "C47", "title": "Loss of the connection is an error, not a crash", "statement": "If the server closes the connection at any point of a handshake, ping, execute, insert or query, the operation returns an error; it never panics.", "quantifier": "every operation and every point (packet sequence) at which the connection ends", "why_tests_cant": "Crash points are unbounded.", "anchors": ["src/lib.rs: hello, ping, execute_, insert_block_", "src/io/transport.rs: clear, read_block"]}
{"id": "C48", "title": "The pool never exceeds its maximum", "statement": "The number of open connections of a pool (idle, in use, being opened) never exceeds the configured maximum.", "quantifier": "every sequence (and every interleaving) of acquiring, polling, returning, failing and dropping", "why_tests_cant": "Interleavings are unbounded; the race window is a few instructions.", "anchors": ["src/pool/mod.rs: poll, handle_futures, take_conn, return_conn"]}
{"id": "C49", "title": "Pool accounting is exact", "statement": "The pool's in-use count always equals the number of live connections handed out; every handed-out connection is given back or discarded exactly once, whatever the user does with the handle; the count never goes below zero and the idle store never overflows.", "quantifier": "every history of acquisitions, operations, failures, timeouts, cancellations and drops", "why_tests_cant": "Histories are unbounded.", "anchors": ["src/pool/mod.rs: return_conn, release_conn, Drop for ClientHandle", "src/io/transport.rs: TransportStatus::drop"]}
{"id": "C50", "title": "Waiting for a connection is not forgotten", "statement": "A task waiting for a connection is eventually woken when a connection or capacity becomes available.", "quantifier": "every interleaving of waiting, connecting, failing, cancelling and releasing tasks", "why_tests_cant": "Depends on schedules.", "anchors": ["src/pool/mod.rs: poll, handle_futures, release_conn, return_conn", "src/pool/futures/get_handle.rs"]}
{"id": "C51", "title": "Connection checks give up after the configured retries", "statement": "Before a query the connection check performs at most the configured number of retries and then reports the error.", "quantifier": "every sequence of ping and reconnect outcomes and every retry limit", "why_tests_cant": "Outcome sequences are unbounded.", "anchors": ["src/retry_guard.rs: retry_guard, reconnect, check"]}
{"id": "C52", "title": "A handle stays usable after an error", "statement": "After any operation on a handle fails (server exception, lost connection, failed check), a later operation on the same handle either works or returns an error; it never panics.", "quantifier": "every history of operations and failures on a handle", "why_tests_cant": "History dependent.", "anchors": ["src/pool/mod.rs: PoolBinding::attach, detach", "src/lib.rs: check_connection", "src/types/query_result/stream_blocks.rs"]}
{"id": "C53", "title": "Hosts are used in rotation", "statement": "With several hosts configured, the k-th new connection goes to host number k modulo the number of hosts, so any n consecutive connections use all n hosts.", "quantifier": "every number of hosts and every k", "why_tests_cant": "Unbounded k.", "anchors": ["src/pool/mod.rs: get_addr"]}
{"id": "C54", "title": "Owned and borrowed values convert losslessly", "statement": "Borrowing a value from an owned value and converting it back gives the same value, and both report the same column type.", "quantifier": "every value tree", "why_tests_cant": "Nested arrays/maps/nullables are unbounded.", "anchors": ["src/types/value_ref.rs: From<&Value> for ValueRef, From<ValueRef> for Value", "src/types/value.rs: From<Value> for SqlType"]}
{"id": "C55", "title": "Equality of values, columns and blocks is reflexive and compares contents", "statement": "Every value, column and block without floating-point NaN equals itself, and two blocks compare equal only if they have the same cell values.", "quantifier": "every value, column, block", "why_tests_cant": "All value kinds, nested without bound.", "anchors": ["src/types/value.rs: PartialEq", "src/types/value_ref.rs: PartialEq", "src/types/column/mod.rs: PartialEq", "src/types/block/mod.rs: PartialEq"]}
{"id": "C56", "title": "Equal values hash equally", "statement": "Values that compare equal hash equally, and hashing a value that may be a map key or dictionary entry never panics.", "quantifier": "every pair of values", "why_tests_cant": "All pairs of values.", "anchors": ["src/types/value.rs: Hash, PartialEq", "src/types/value_ref.rs: Hash, PartialEq"]}
{"id": "C57", "title": "Typed reads are exact or fail", "statement": "Reading a cell as a Rust type succeeds exactly when the cell's type corresponds to that Rust type and then returns exactly the stored value; otherwise it returns a type error.", "quantifier": "every value and every supported target type", "why_tests_cant": "All values and targets.", "anchors": ["src/types/from_sql.rs"]}
{"id": "C58", "title": "An absent timeout means no time limit", "statement": "If the insert or execute timeout is set to none, the operation is not cut off by time.", "quantifier": "every option setting and operation duration", "why_tests_cant": "Time is unbounded.", "anchors": ["src/lib.rs: execute, insert, with_timeout", "src/types/options.rs"]}
{"id": "C59", "title": "Enum declarations are understood exactly", "statement": "An enum type name lists (name, number) pairs; the client decodes exactly these pairs in order, and a value outside the declared width is never silently changed.", "quantifier": "every list of names and numbers", "why_tests_cant": "Arbitrary names (quotes, backslashes, unicode) and numbers.", "anchors": ["src/types/column/factory.rs: parse_enum8, parse_enum16, parse_enum", "src/types/mod.rs: SqlType::to_string", "src/types/column/enums.rs"]}
{"id": "C60", "title": "A dropped result stream leaves a recoverable connection", "statement": "If a result stream is dropped before its end, the connection returns to its handle marked as needing resynchronisation, and the next checked operation discards all leftover packets of the old query before doing anything else.", "quantifier": "every point at which the stream is dropped and every leftover packet sequence ending the old query", "why_tests_cant": "Unbounded leftovers.", "anchors": ["src/types/query_result/stream_blocks.rs: Drop for BlockStream", "src/io/transport.rs: clear"]}
{"id": "C64", "title": "A column built from Rust values gives those values back", "statement": "A column built from a list of Rust values (numbers, text, bytes, addresses, dates, times, decimals, enums), or of optional such values, vectors of them or maps, has as many rows as the list, and the typed read of each row gives the value of that row.", "quantifier": "every element type, every list length, every value", "why_tests_cant": "All values of all element types, nested in vectors and maps of any size.", "anchors": ["src/types/column/mod.rs: ColumnFrom", "src/types/column/{numeric,string,ip,date,chrono_datetime,decimal,enums,array,map,nullable}.rs: column_from", "src/types/from_sql.rs"]}
{"id": "C61", "title": "Credentials and database of the URL are decoded", "statement": "The user name, the password and the database written percent-encoded in the connection URL are the ones the client logs in with, for any strings and any way of escaping them.", "quantifier": "every user name, password and database name, every percent-encoding of them", "why_tests_cant": "All strings and all their encodings.", "anchors": ["src/types/options.rs: from_url, get_username_from_url, get_password_from_url, get_database_from_url"]}
{"id": "C65", "title": "fetch_all returns all rows", "statement": "fetch_all returns a block with exactly the rows of all blocks of the server's answer, in order, when the answer is complete; when the server reports an exception or the connection is lost it returns an error and no data. It never panics on an answer.", "quantifier": "every answer: any number of blocks of any size, any interleaving with progress and profile packets, any place of failure", "why_tests_cant": "All sequences of packets of any length and all contents.", "anchors": ["src/types/query_result/mod.rs: fetch_all", "src/types/block/mod.rs: concat"]}
{"id": "C66", "title": "The row stream gives the rows of the answer in order", "statement": "stream() gives the rows of all data blocks of the answer, in order, each once, then ends; rows before a failure are given before the error; the rows are those fetch_all returns.", "quantifier": "every answer and every number of polls", "why_tests_cant": "All sequences of packets of any length and all contents.", "anchors": ["src/types/query_result/mod.rs: stream", "src/types/query_result/stream_blocks.rs", "src/types/block/row.rs: Rows"]}
{"id": "C67", "title": "Copies of a column do not influence one another", "statement": "After a block or column has been copied, appending a value to the original or to the copy gives what appending to a column of which there is no copy gives, and the other one does not change; dropping a copy changes nothing.", "quantifier": "all columns, values and sequences of creating, copying, appending and dropping", "why_tests_cant": "All interleavings of copies and appends over arbitrarily nested columns.", "anchors": ["src/types/column/mod.rs: Column::push, Clone for Column", "src/types/column/*.rs: clone_instance, push", "src/types/block/mod.rs: Clone for Block"]}
{"id": "C62", "title": "Dropping a pool closes its connections", "statement": "When the user has dropped every clone of the pool, every GetHandle and every ClientHandle, and no call is in progress, no connection of the pool is open or being opened; before that the pool is not freed.", "quantifier": "all configurations and all interleavings of polls, connection outcomes, handle drops, failures, pool clones and pool drops", "why_tests_cant": "A leaked connection is invisible to a test that looks at results; it needs a particular order of a connection becoming ready and another being returned.", "anchors": ["src/pool/mod.rs: Pool, Inner, PoolBinding, new_connection, return_conn, Drop for ClientHandle", "src/pool/futures/get_handle.rs", "src/io/transport.rs: Drop for TransportStatus"]}
{"id": "C68", "title": "Which spellings of a type name are accepted, and as what", "statement": "The client accepts exactly the spellings given by a grammar (aliases, letter case of simple names, blanks, leading zeros and signs, escapes in quotes, optional zones, nesting) and takes each in the one meaning the grammar gives it; other texts are not accepted, and malformed names are errors.", "quantifier": "all texts of any length and nesting, all zone databases", "why_tests_cant": "The set of spellings is infinite and the parsers slice at fixed offsets, so that acceptance of an unusual spelling or rejection of a usual one shows only for particular texts.", "anchors": ["src/types/column/factory.rs: load_data, match_str, parse_nullable_type, parse_fixed_string, parse_array_type, parse_map_type, parse_decimal, parse_enum, parse_date_time, parse_date_time64, parse_simple_agg_fun, parse_low_cardinality"]}
{"id": "C69", "title": "Opening a connection: addresses, encryption, greeting", "statement": "Opening a connection tries all addresses of the host and succeeds if one of them can be reached; it fails only if none can. A URL that asks for an encrypted connection never leads to a plain one. A handle is given only after the server has greeted, on a connection on which nothing else has been sent. Nothing panics while connecting.", "quantifier": "all lists of addresses, all orders and delays in which the attempts are decided, all TLS outcomes, all servers, all parameter lists", "why_tests_cant": "The race of the attempts has unboundedly many schedules, and tests run in one build configuration.", "anchors": ["src/connecting_stream.rs: ConnectingStream::new, new_tls_connection, State::poll", "src/lib.rs: Client::open, hello", "src/types/options.rs: set_params"]}
{"id": "C70", "title": "The operations' view of a connection is the connection over the socket", "statement": "However the socket cuts the server's bytes into pieces and however often it is not ready, what an operation gets by awaiting a packet stream is exactly the sequence of messages encoded in those bytes: each await gives the next message, comes to an end as soon as one is there and the command has been taken, never ends when there is none, and hands over the connection exactly with the messages that end an exchange.", "quantifier": "for all scripts of read and write events of a socket that does not fail or end, all contents of the buffers, all commands, and any number of awaits", "why_tests_cant": "the number of ways to cut and delay a byte stream is unbounded, and tests against a local server see few of them", "anchors": ["src/io/transport.rs:157-197", "src/io/transport.rs:265-299", "src/io/transport.rs:330-408", "src/io/read_to_end.rs:24-58"]}
{"id": "C71", "title": "The first decisive message decides how an operation ends", "statement": "Greeting, ping, execute, clearing an abandoned answer, and each step of an INSERT end exactly as the first decisive message of the answer says: success with the message waited for (keeping what follows it), the server's error for an exception, an I/O error for a failed socket or undecodable message, 'unexpected packet' for a message that has no place there, and waiting as long as nothing decisive comes. An error reported by the server for any part of an INSERT is the error of the insert.", "quantifier": "for all sequences of messages, all servers, all connections, any number of chunks of an INSERT", "why_tests_cant": "the messages come in unboundedly many orders, and a test server does not send misplaced or failing ones on demand", "anchors": ["src/lib.rs:305-366", "src/lib.rs:400-426", "src/lib.rs:455-516", "src/io/transport.rs:102-125", "src/io/transport.rs:303-320"]}
{"id": "C72", "title": "Query settings reach the server as last given", "statement": "After any sequence of with_setting calls each name has exactly the value and importance last given for it, names not given keep theirs, no name is sent twice, and no other option changes; integers are sent as their decimal notation and a server reads the value that was given.", "quantifier": "for all sequences of calls, all names, values and importances, all integers, all server revisions", "why_tests_cant": "the tests set one or two settings and never a negative integer, and do not involve servers of old revisions", "anchors": ["src/types/options.rs:141-206", "src/types/options.rs:360-373", "src/types/options.rs:566-579", "src/types/cmd.rs:108-156"]}
{"id": "C73", "title": "Typed iterators behave as iterators over the rows", "statement": "Any sequence of next, nth, len, size_hint and count on a typed column iterator is answered as by the list of the column's rows: nth(n) gives what n+1 calls of next would give and leaves the rows after it, len is exactly the number of rows left, and after the end the iterator stays at the end.", "quantifier": "for all columns, all Rust types iterated, all sequences of calls", "why_tests_cant": "the tests collect whole iterators; nth, and calls mixed after the end, are hardly used", "anchors": ["src/types/column/iter/mod.rs:86-124", "src/types/column/iter/mod.rs:237-302", "src/types/column/iter/mod.rs:305-445", "src/types/column/iter/mod.rs:537-811", "src/types/column/iter/mod.rs:1333-1425"]}
{"id": "C63", "title": "No bytes of the peer bring the client down", "statement": "Whatever bytes arrive on the socket, reading a message ends with a message, an error or a request for more bytes, and not with a panic: announced lengths, row counts, array offsets, dictionary sizes and flags are checked before memory is asked for.", "quantifier": "for all byte strings, all packet kinds, all column types however nested, compressed or not", "why_tests_cant": "the tests feed well-formed messages; the space of malformed ones has no bound and the bad cases need sizes near 2^63", "anchors": ["src/binary/read_ex.rs:53-77", "src/binary/read_ex.rs:100-105", "src/types/column/string_pool.rs:54-104", "src/types/column/low_cardinality.rs:189-201", "src/types/column/low_cardinality.rs:220-272", "src/types/block/mod.rs:168-215", "src/types/block/compressed.rs:66-118", "src/binary/parser.rs:35-102"]}
{"id": "C74", "title": "Values and blocks are shown as they are", "statement": "The text of a value shows the value: numbers in decimal notation, texts as they are, addresses in their usual notation, arrays element by element, NULL for a missing value; a value and its borrowed form have the same text; the table printed for a block has a header with the column names and one line per row, all lines equally long, with every cell flush right in its column.", "quantifier": "for all values however nested, all blocks of any number of rows and columns, all texts including multi-byte characters", "why_tests_cant": "the tests compare a few texts; alignment with multi-byte characters and the agreement of the two formatters are not covered", "anchors": ["src/types/value.rs:194-276", "src/types/value.rs:594-602", "src/types/value_ref.rs:126-204", "src/types/block/mod.rs:382-443", "src/types/enums.rs:18-68", "src/types/decimal.rs:141-163"]}
{"id": "C75", "title": "Rust values put into a Value come out of it", "statement": "A Rust value turned into a Value (as row! does) and taken out again, by From<Value> or by a typed read, is the same Rust value; From<Value> gives a Rust value only if the Value holds it; the Value has the column type of the Rust type, the same for None and Some; typed reads and From<Value> agree.", "quantifier": "for all Rust types with From<T> for Value, options and maps nested to any depth, all their values, all Values", "why_tests_cant": "the tests convert one value of each type; dates outside the stored range, times with fractions, addresses whose octets differ, maps with other keys and nesting are not covered", "anchors": ["src/types/value.rs:322-602", "src/types/mod.rs:187-231", "src/types/from_sql.rs:108-356"]}
{"id": "C76", "title": "Column data and blocks follow the native format", "statement": "What is written for a column or a block is the native format of its rows, byte for byte as servers define it (sizes and order of numbers, length prefixes, offsets, NULL flags, dictionaries, version words), and every column or block in that format is read as the rows it holds.", "quantifier": "for all columns and row ranges, all blocks, all byte sequences in the format, types nested to any depth", "why_tests_cant": "round-trip tests cannot see a mistake made alike in writing and reading (an enum of two bytes instead of one); a test against a server covers the few types and shapes it uses", "anchors": ["src/types/column/numeric.rs:163-200", "src/types/column/string.rs:38-60", "src/types/column/nullable.rs:24-55", "src/types/column/array.rs:24-70", "src/types/column/map.rs:24-80", "src/types/column/low_cardinality.rs:77-310", "src/types/block/mod.rs:168-184", "src/types/block/mod.rs:361-368"]}
{"id": "C77", "title": "From the bytes of an answer to the rows, from a block to the bytes", "statement": "When the socket delivers, in whatever parts, the bytes of a complete answer (blocks in the native format, plain or in compressed frames, progress, end mark), fetch_all and stream give exactly the rows that were laid out (the entries of a map in any order), under the names of the first block; and a block to be sent becomes the data message with that block in the native format, plain or in one frame.", "quantifier": "for all answers with any number of messages, blocks, columns and rows, all fragmentations, with and without compression, all codecs", "why_tests_cant": "tests against a server see the few shapes and fragmentations that happen; a mistake in any of the layers between socket and rows shows only for some of them", "anchors": ["src/types/query_result/mod.rs:60-110", "src/types/query_result/stream_blocks.rs:76-122", "src/io/transport.rs:120-260", "src/binary/parser.rs:30-60", "src/types/block/compressed.rs:22-118", "src/types/block/mod.rs:156-184", "src/types/block/mod.rs:329-375"]}
{"id": "C78", "title": "What is inserted is what is selected", "statement": "An INSERT of a block into a table sends the rows of the block, every cell converted to the type of the table's column, in the native format; and a server that keeps these rows and is asked for them, however it cuts them into blocks, frames and packets, makes fetch_all return exactly these rows under the block's names.", "quantifier": "for all blocks of up to 1048576 rows with any number of columns, all tables whose types the conversion supports, all ways to cut the answer, with and without compression", "why_tests_cant": "a round trip through a server has been tried for a handful of types and small blocks; the claim ranges over all contents, all conversions and all ways the answer can be cut", "anchors": ["src/lib.rs:440-528", "src/types/block/mod.rs:305-375", "src/types/column/mod.rs:229-464", "src/types/query_result/mod.rs:60-110"]}
{"id": "C79", "title": "A sequence of operations is the sequence of statements", "statement": "Whatever a user asks of one handle in turn - pings, statements, queries read to their end or dropped after any number of items, inserts of any number of rows - each operation succeeds if the database can do it, a query yields exactly the blocks of its own answer in the state the earlier statements led to, and the state of the database after all of it is the one the statements lead to in that order; nothing of an abandoned answer reaches a later operation.", "quantifier": "for all databases (any state type, answers and effects), all lists of operations of any length, all drop points, handles of a pool with ping_before_query (the default)", "why_tests_cant": "the interleavings of operations, drop points and answers are unbounded; tests try single operations or a few fixed pairs", "anchors": ["src/lib.rs:330-600", "src/types/query_result/stream_blocks.rs:36-122", "src/io/transport.rs:98-180", "src/retry_guard.rs:14-66"]}
{"id": "C80", "title": "The checksum of compressed blocks reads the whole buffer and nothing else", "statement": "For every buffer, of any length, the C++ checksum function called through city_hash_128 ends, makes no read outside the buffer (nor through the null pointer it passes for 8 to 15 bytes, nor before it in the loop that walks back from the end), never shifts by 64 bits or more, reads every byte of the buffer, and computes CityHash128 as defined on the bytes alone.", "quantifier": "for all byte strings of any length", "why_tests_cant": "the one test hashes three bytes; the branches depend on the length in eight ways and the loops are unbounded; an out-of-bounds read of a few bytes goes unnoticed", "anchors": ["clickhouse-rs-cityhash-sys/src/lib.rs:18-21", "clickhouse-rs-cityhash-sys/src/cc/city.cc:85-175", "clickhouse-rs-cityhash-sys/src/cc/city.cc:252-354", "clickhouse-rs-cityhash-sys/src/cc/city.h:77-86"]}
{"id": "C81", "title": "A failure stays with the operation it happens to", "statement": "Whatever happens to a handle in turn - statements the server refuses or whose answer breaks off with a socket error, queries read to their end, to a failure, or dropped anywhere, inserts that are refused, cannot be converted, or lose one of their chunks, connections that break between operations, attempts to reconnect that fail - every operation gets the reply of the database to its own statement in the state the earlier statements led to, and the next operation works on a connection in step.", "quantifier": "for all databases (any states, answers, effects and failures), all lists of operations and breaks of any length, all numbers of failing reconnections up to the retry limit, handles of a pool with ping_before_query and send_retries above 0 (the defaults)", "why_tests_cant": "combinations of failures, drop points and reconnections are unbounded; tests have at most one failure each", "anchors": ["src/lib.rs:330-600", "src/retry_guard.rs:7-66", "src/io/transport.rs:98-180", "src/types/query_result/stream_blocks.rs:36-122"]}
{"id": "C82", "title": "Operations over the socket do what they do on decoded messages", "statement": "Every operation of a client handle, run over a connection with its socket (packet streams that are polled, bytes that arrive in pieces, writes that take a few bytes, reconnections), gives exactly the result it gives on a connection that hands over decoded messages. Hence, if the socket delivers in whatever pieces and with whatever pauses the bytes of a database's answers to the commands the client sends, any sequence of pings, statements, queries (read to any point) and inserts gives what was asked of the database in turn; it does come to its end if the socket takes bytes often enough; and the bytes the socket takes are, in order and without gaps, the encodings of the commands sent, all of them once an operation has succeeded.", "quantifier": "for all databases, sequences of operations of any length, cuts of the bytes into pieces, pauses, sizes of writes, contents of messages", "why_tests_cant": "tests see the pieces and pauses the kernel happens to produce; interleavings are unbounded", "anchors": ["src/lib.rs:330-600", "src/io/transport.rs:95-410", "src/retry_guard.rs:7-66", "src/types/query_result/stream_blocks.rs:36-122"]}
{"id": "C83", "title": "The log does not reveal the password", "statement": "What the client writes to the log while it opens a connection is the same whatever the password is.", "quantifier": "for all URLs, options, host names and passwords", "why_tests_cant": "no test reads the log; the leak depends on where the password was given, and a test with one way of giving it says nothing about the others", "anchors": ["src/lib.rs:277", "src/lib.rs:307", "src/types/options.rs:32-40", "src/types/options.rs:275-294", "src/types/options.rs:519-525", "src/types/mod.rs:126-133"]}
{"id": "C84", "title": "Operations over a socket that fails or ends do what the decoded messages say", "statement": "Over a socket that may deliver anything in any pieces, fail (on reads and on writes) and end at any time, every operation of a client handle, and every sequence of them with reconnections, gives a result that it gives on decoded messages: the first messages that the delivered bytes decode to, in order and each once, with at most as many failures between them as the socket has, and closings only if the connection ends; what the sockets have taken are the bytes of the commands. Hence no failure is taken for success: a statement is reported as executed, a ping as answered, an INSERT as done, a query as ended only if the bytes delivered contain the whole answer with its end, and then the blocks given are all of its result.", "quantifier": "for all scripts of a socket (bytes, cuts, pauses, failures, ends, sizes of writes), sequences of operations of any length, reconnections", "why_tests_cant": "a test breaks a connection at a few chosen points; the claim is about every point, including inside a message, between a message and the poll that would give it, and during writes", "anchors": ["src/io/transport.rs:157-299", "src/io/transport.rs:330-397", "src/lib.rs:331-516", "src/retry_guard.rs:14-52", "src/types/query_result/stream_blocks.rs:36-122"]}
{"id": "C85", "title": "Abandoning an operation, or its timeout, harms nothing but that operation", "statement": "An operation may be dropped while it waits, by the user or by a timeout, at any of its awaits (reading the rest of an older answer, sending its command, reading the answer, between the chunks of an insert, pinging, reconnecting or sleeping in the check before it). Its handle is then left with the same settings, bound to its pool, and without a connection, so that nothing of the operation is read by another; a query given up while its answer is read leaves its connection marked. The socket has taken only the beginning of the bytes of the commands of that operation. Awaiting a block of a query again after giving up loses and repeats nothing. Whatever is asked afterwards is answered by the database as if the operation had not been there, but for its effect on the database.", "quantifier": "for all environments, sockets, connections, operations, points at which an operation can be dropped, and for all databases and things asked afterwards", "why_tests_cant": "every await of every operation is a point of cancellation, times any state of the socket; tests would have to stop the server at each byte", "anchors": ["src/lib.rs:331-366", "src/lib.rs:381-478", "src/lib.rs:530-609", "src/lib.rs:624-642", "src/retry_guard.rs:7-68", "src/types/query_result/stream_blocks.rs:36-122"]}
{"id": "C86", "title": "Tasks that share a pool of connections do not see one another", "statement": "Several tasks get handles from one pool, ask things, read results block by block while others work, drop streams before their end, drop their handles and get handles again, which may be used ones; connections break while they are in use, lent to a stream or idle; the database is changed by others in the meantime. Every task gets what the database says to its own statements in the state in which they find it, and the blocks of its own queries in order. Whatever was left on a connection by the task that had it before, and whatever happens to the connections, does not show. A handle dropped with its connection goes to the end of the queue of idle handles while fewer than the minimum are idle, and no more than the minimum are kept.", "quantifier": "for all databases, numbers of tasks, sequences and interleavings of what they do, states of the connections, sizes of the pool, and changes made by others", "why_tests_cant": "the interleavings of any number of tasks over reused connections, with breaks at any point, cannot be enumerated; a leak shows only when a particular connection with a particular rest is handed to another task", "anchors": ["src/pool/mod.rs:70-74", "src/pool/mod.rs:192-270", "src/pool/mod.rs:279-295", "src/retry_guard.rs:7-68", "src/lib.rs:530-593", "src/types/query_result/stream_blocks.rs:36-122"]}
{"id": "C87", "title": "Every operation comes to exactly one end", "statement": "Whatever is asked of a handle (ping, statement, query, INSERT), in whatever state its connection is and whatever the sockets do byte by byte: the operation has one reply and leaves one handle, or it panics, or it waits for ever, or reading or writing a message panics; never two of these, and never none. No operation goes round in a loop without waiting for its socket. What waits for ever may be abandoned there, and timeouts take no reply away that there would be without them.", "quantifier": "for all handles, transport states, scripts of what the sockets do on reads and writes, connections to be had from reconnecting, and things asked", "why_tests_cant": "that no case of a socket's behaviour is left without an outcome, and that the outcome depends on nothing else, is a statement about all scripts; tests run some", "anchors": ["src/lib.rs:331-366", "src/lib.rs:381-516", "src/lib.rs:530-642", "src/retry_guard.rs:14-68", "src/io/transport.rs:102-125", "src/io/transport.rs:265-408", "src/types/query_result/stream_blocks.rs:36-122"]}
{"id": "C88", "title": "A pool keeps finished connections only, at most its minimum, and hands out the oldest first", "statement": "The idle connections form a queue: while a connection is idle nothing overtakes it, and an idle connection leaves only as the first, to be handed out attached and no longer marked as the pool's. A connection that an operation has lost is gone for good; one whose handle is dropped while an operation is unfinished is never kept nor handed out again and is closed. A handle dropped with its connection goes to the end of the queue if fewer than the minimum (and the maximum) are idle; when no call is in progress the pool keeps at most the minimum.", "quantifier": "all configurations and all interleavings of the atomic steps of any number of concurrent polls, drops and losses", "why_tests_cant": "The order and the number of idle connections depend on how concurrent calls interleave; a connection that comes back after it was given up shows only in particular schedules.", "anchors": ["src/pool/mod.rs:192-270", "src/pool/mod.rs:279-295", "src/io/transport.rs:128-140"]}
{"id": "C89", "title": "From the bytes on any socket to the rows: no answer is mistaken for another, and none that is cut or failed for a whole one", "statement": "Let the bytes of a server's answer (native format) come on the connections a query may use, in whatever parts and with pauses. A query that gives blocks and then ends has given the rows of that answer, all and only those; the blocks given so far are always the first of the answer, in order. If the answer is cut anywhere, or ends in an exception, neither a query nor a statement is ever reported as done, however the socket fails or ends and however often the client reconnects. Conversely over a socket that keeps taking and delivering bytes the query is served.", "quantifier": "all answers, all socket scripts (fragmentation, pauses, failures, closings at any point), all queries, with and without the ping beforehand, all sequences of reconnections", "why_tests_cant": "Tests run against a healthy local server; the cut of an answer at each byte, with each fragmentation and each failure of the socket, cannot be enumerated.", "anchors": ["src/types/query_result/stream_blocks.rs:52-122", "src/io/transport.rs:84-210", "src/lib.rs:381-433", "src/retry_guard.rs:7-52"]}
{"id": "C90", "title": "Dates are calendar dates: stored, read, ordered and printed as the dates they are", "statement": "A date is stored as the number of days it lies after 1970-01-01 in the Gregorian calendar and read back as the same date, from values, columns and what is received; the numbers stored are in the order of the dates; its text is its year, month and day with four, two and two digits; the text of a borrowed DateTime or DateTime64 is the date and time of day that clocks of its zone show at that instant. Different dates, and different readings of the clock, have different texts.", "quantifier": "all dates, all columns of them, all zones and instants", "why_tests_cant": "Leap years, the ends of months and years, the ends of the range of a u16 and zones on either side of UTC make far more cases than the single dates in tests.", "anchors": ["src/types/date_converter.rs:11-15", "src/types/value.rs:230-241", "src/types/value.rs:365-369", "src/types/value.rs:548-558", "src/types/value_ref.rs:146-170", "src/types/from_sql.rs:300-317", "src/types/column/date.rs:75-88"]}
{"id": "C91", "title": "An INSERT reported as done has put exactly its rows on the wire", "statement": "When insert() returns success, over whatever socket, the server had named the header of a table, and the socket has taken, after all bytes due before, exactly the statement as the server reads it, the rows of the block converted to the types of that header in the native format, compressed or not, and the end of the data; a block of more than 1048576 rows goes in pieces, each with its statement and its end, whose rows are the rows of the block in order. Nothing is still waiting to be sent.", "quantifier": "all sockets (any fragmentation, failures and waits), all earlier commands, all blocks with rows, all headers the block suits, with and without compression and the ping before", "why_tests_cant": "That nothing is left in a buffer when success is reported depends on how the socket takes the bytes; a server that is read from in a test hides what was cut.", "anchors": ["src/lib.rs:436-516", "src/io/transport.rs:176-237", "src/io/transport.rs:303-408", "src/types/cmd.rs:20-62", "src/types/block/mod.rs:305-327", "src/types/block/mod.rs:361-390"]}
{"id": "C92", "title": "What is inserted over one connection is what is selected over another", "statement": "When insert() of any number of rows is reported as done over one socket, what that socket has taken can be read by a server in one way only, as the rows of the block converted to the types of the table; and when the server gives these rows back over another socket, in whatever blocks, frames and fragments, a query there that completes has given exactly these rows, cell by cell.", "quantifier": "all pairs of sockets (any fragmentation, failures and waits), all earlier commands, all blocks with rows, all headers the block suits, all readings of the bytes that the protocol and the native format allow, all ways to cut the rows into answer blocks and packets, with and without compression", "why_tests_cant": "A round trip in a test sees one server, one way of cutting the data and one block; an encoder and a decoder that are wrong in the same way agree with each other, here both are held against the native format.", "anchors": ["src/lib.rs:436-516", "src/types/block/mod.rs:305-327", "src/types/block/chunk_iterator.rs:14-48", "src/io/transport.rs:176-408", "src/types/query_result/mod.rs:29-100", "src/binary/parser.rs:40-130"]}
{"id": "C93", "title": "Statements are written for the server they go to, also after a reconnection", "statement": "When the check before an operation has replaced the connection, perhaps by one to a server of another revision, every statement sent over the new connection is written for the revision which the server of that connection has announced.", "quantifier": "all handles, all queries and blocks, all servers and revisions, all sequences of successful and failed reconnections, all retry counts", "why_tests_cant": "A test needs servers of different revisions behind one address and a connection that is lost between two statements.", "anchors": ["src/lib.rs:385-434", "src/lib.rs:436-476", "src/retry_guard.rs:14-66", "src/types/query_result/mod.rs:80-100", "src/types/cmd.rs:78-132", "src/types/mod.rs:104-112"]}
{"id": "C94", "title": "Decimals from floating-point numbers and back", "statement": "Decimal::of of an f32 or f64 gives the number with the digits beyond the scale cut off, and refuses what does not fit into 18 digits; a Decimal turned into an f64 and back is the same Decimal.", "quantifier": "all finite floating-point values, infinities and NaN, both types, all scales up to 18, all underlying integers", "why_tests_cant": "There are 2^64 doubles and 19 scales; the losses depend on two roundings and concern few of the values (0.29, 0.57 and 0.58 among the hundredths).", "anchors": ["src/types/decimal.rs:72-95", "src/types/decimal.rs:166-177", "src/types/decimal.rs:194-211"]}
{"id": "C95", "title": "A task that waits for a connection is served", "statement": "Every call to the pool ends by itself; a task that polls is given the connection that has been available for longest, or one is opened for it, or it is registered because the maximum is in use; and a task that polls again whenever it is woken gets a connection after finitely many of them have been given back.", "quantifier": "all limits, all states of the pool, all tasks, all ways the opening of connections can go; termination: all interleavings", "why_tests_cant": "Starvation shows only under schedules in which another task comes first every time; a test run ends before it can tell waiting long from waiting for ever.", "anchors": ["src/pool/mod.rs:192-215", "src/pool/mod.rs:223-270", "src/pool/futures/get_handle.rs:1-30"]}
{"id": "C96", "title": "Compressed data mean what the LZ4 format says", "statement": "Data in compressed frames that keep to the LZ4 block format and carry their CityHash are read as the data the frames say, whatever compressor made them and however they are cut; nothing but such frames is accepted, and only the data they say are handed on.", "quantifier": "all sequences of literals and matches (overlapping ones included), all lengths, all ways of cutting into frames, all data before and behind", "why_tests_cant": "The project has one test frame, which holds literals only. Matches, overlaps, continued lengths and the rules at the end of a block are not exercised, and a test cannot say that nothing else is accepted.", "anchors": ["src/types/block/compressed.rs:66-118", "src/types/block/mod.rs:330-360", "clickhouse-rs-cityhash-sys/src/lib.rs:18-21"]}
{"id": "C97", "title": "Errors tell the caller what happened", "statement": "A lack of bytes is never reported as an error and no error is taken for a lack of bytes; every other error of the reader reaches the caller as the error it is, with the text of its cause, and the text of a server exception tells its name, code and message.", "quantifier": "for all errors, in compressed frames or not, all results of the reader, all unknown packet numbers, all exceptions, all error codes of the table", "why_tests_cant": "The two unit tests convert one error each and do not look at what reaches the caller through the stream; the errors, texts and numbers are unboundedly many.", "anchors": ["src/errors/mod.rs:14-214", "src/errors/codes.rs:1-474", "src/io/transport.rs:157-197", "src/io/transport.rs:352-361", "src/types/block/compressed.rs:55-61", "src/types/query_result/stream_blocks.rs:90"]}
{"id": "C98", "title": "Options are the same for everybody and from every spelling", "statement": "However often and by whomever a source of options is asked, it gives the same answer, and the reference it handed out stays valid; a URL and the calls that say the same give the same options, each call changing one option; a pool takes its limits and hosts from them, and a URL that cannot be read is reported to everybody who asks the pool for a connection.", "quantifier": "for all URLs, options, chains of calls, numbers of calls of get, and all interleavings of calls of a pool whose URL cannot be read", "why_tests_cant": "The tests parse a dozen URLs and compare them with options built by hand; the chains of calls and the interleavings are unboundedly many, and no test makes a pool of a bad URL.", "anchors": ["src/types/options.rs:22-95", "src/types/options.rs:328-480", "src/types/options.rs:495-534", "src/pool/mod.rs:132-176", "src/pool/mod.rs:192-242", "src/lib.rs:255-265"]}
{"id": "C99", "title": "Raw memory is only read where it was written, and references stay valid", "statement": "The receive buffer never shows a byte that was not written, whatever the library allocates and the sockets answer; no unsafe function is called outside its contract; a vector whose length is set before it is filled is only answered full; the memory of a column holds only values of its type; references to types stay valid and are shared.", "quantifier": "for all growth strategies, sockets that keep to their contract, sequences of filling and emptying, readers, sizes, input bytes and sequences of interned types", "why_tests_cant": "Reading memory that was not written gives plausible values most of the time; the tests see neither the allocation nor what a socket is offered.", "anchors": ["src/io/read_to_end.rs:11-58", "src/io/transport.rs:157-197", "src/binary/read_ex.rs:25-42", "src/binary/read_ex.rs:60-77", "src/types/column/numeric.rs:163-170", "src/types/column/date.rs:61-72", "src/types/column/datetime64.rs:28-40", "src/types/column/list.rs:34-46", "src/types/column/factory.rs:65", "src/types/mod.rs:341-371"]}
{"id": "C100", "title": "What the URL says is what the server is told", "statement": "For every URL the client accepts: the connection goes to the host and port the URL names (9000 if none), the first message on it gives the server the user, password and database the URL names (each percent-decoded, with the documented defaults), and every query on it carries as settings exactly the URL parameters that are not the client's own, once each with the value given last, and asks for compression exactly if the last `compression` parameter says lz4.", "quantifier": "all URLs, all credentials and settings, all servers and networks on which opening the connection succeeds, all queries", "why_tests_cant": "Tests use one fixed URL and look at the parsed options; no test can compare, for every URL, what is written in it with the bytes a server reads.", "anchors": ["src/types/options.rs:495-582", "src/types/cmd.rs:46-156", "src/lib.rs:260-302"]}
{"id": "C101", "title": "What a pool tells about itself is true", "statement": "The report of a pool (its Debug text) gives its limits and the numbers of connections being opened, idle and in use and of tasks waiting: the text contains exactly these six numbers in a fixed order, and the numbers are those of the pool at a moment while it was looked at, so that no connection is counted twice or left out and no number is above its limit.", "quantifier": "all limits, all states reached by any interleaving of calls, all moments at which the four numbers are read", "why_tests_cant": "The tests read the numbers when everything has stopped; the numbers are read one after the other while other threads use the pool, in any of infinitely many interleavings.", "anchors": ["src/pool/mod.rs:108-129", "src/pool/mod.rs:178-185", "src/pool/mod.rs:223-270"]}
{"id": "C102", "title": "Builds without overflow checks give no wrong numbers", "statement": "In a build without overflow checks (the default of release builds) the reader of variable-length integers, the conversions and comparisons of decimals and those of times with a precision give what they give in a build with checks; and where a build with checks panics, they report an error or panic too, and never give a wrong number.", "quantifier": "all byte sequences, all decimals and scales, all integer types and values, all times and precisions", "why_tests_cant": "Tests run with overflow checks; the default release profile, in which applications run, computes differently for infinitely many inputs.", "anchors": ["src/binary/read_ex.rs:79-98", "src/types/decimal.rs:72-139", "src/types/decimal.rs:194-263", "src/types/column/datetime64.rs:119-144", "src/types/value.rs:120-143"]}
{"id": "C103", "title": "Columns of numbers mean the same on every machine", "statement": "On machines with either byte order, a column of numbers is sent as the words of its numbers with the least significant byte first, as servers read them, and the words of a server are read as the numbers they stand for.", "quantifier": "both byte orders, all widths, all columns of numbers, all ranges of rows", "why_tests_cant": "Tests run on a little-endian machine only.", "anchors": ["src/types/column/list.rs:75-97", "src/types/column/numeric.rs:163-170", "src/types/column/numeric.rs:252-256", "src/types/column/array.rs:30-32", "src/types/column/array.rs:51-60", "src/types/marshal.rs:5-31"]}
{"id": "C104", "title": "No column brings the stack to its end", "statement": "There is a limit to how deep the reading of a column recurs, whatever the type that a server announces for it.", "quantifier": "all type names, all depths of nesting", "why_tests_cant": "Tests read types nested a few times; where the stack ends depends on the machine and the thread.", "anchors": ["src/types/column/factory.rs:58-116", "src/types/column/array.rs:38-39", "src/types/column/map.rs:39-40", "src/types/column/nullable.rs:32-33", "src/types/column/low_cardinality.rs:227-250"]}
{"id": "C105", "title": "A length that the machine cannot hold is an error, not another length", "statement": "Whatever the size of the words of the machine, a length or an offset that a server announces is taken as it is, or the message is refused; it is never taken for a smaller one.", "quantifier": "all word sizes up to 64 bits, all byte sequences, all types inside of arrays", "why_tests_cant": "Tests run on one machine, with 64-bit words, where the conversion changes nothing.", "anchors": ["src/binary/read_ex.rs:53-58", "src/types/column/array.rs:24-43", "src/types/column/array.rs:36"]}
{"id": "C106", "title": "A message takes memory in proportion to the data that has come", "statement": "At every moment while a column is read, the memory that the client has asked for is at most a fixed multiple of the bytes that have come.", "quantifier": "all types however nested, all numbers of rows, all byte sequences, complete or not", "why_tests_cant": "Tests read complete messages of honest servers; the bound is about all announced lengths and all ways of cutting a message.", "anchors": ["src/binary/read_ex.rs:53-58", "src/binary/read_ex.rs:100-105", "src/types/column/string_pool.rs:54-104", "src/types/column/numeric.rs:163-170", "src/types/column/nullable.rs:30-33", "src/types/column/low_cardinality.rs:220-272"]}
