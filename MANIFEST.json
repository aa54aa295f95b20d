{
 "claims": [
  {
   "property": "C01",
   "status": "proved",
   "theorems": [
    "CH.Props.C01_uvarint_roundtrip",
    "CH.Props.C01_uvarint_length",
    "CH.Props.C01_uvarint_canonical"
   ],
   "note": "all u64 values"
  },
  {
   "property": "C02",
   "status": "partial",
   "theorems": [
    "CH.Props.C02_uvarint_total_partial",
    "CH.Props.C02_uvarint_unfinished_partial",
    "CH.Props.C02_uvarint_sound",
    "CH.Props.C02_uvarint_panic_violated"
   ],
   "note": "the no-panic part is false: eleven bytes with the continuation bit overflow a shift; proved for all inputs outside that case"
  },
  {
   "property": "C03",
   "status": "proved",
   "theorems": [
    "CH.Props.C03_bytes_roundtrip",
    "CH.Props.C03_string_roundtrip",
    "CH.Props.C03_string_faithful",
    "CH.Props.C03_skip_string"
   ],
   "note": ""
  },
  {
   "property": "C04",
   "status": "proved",
   "theorems": [
    "CH.Props.C04_unsigned_roundtrip",
    "CH.Props.C04_unsigned_surjective",
    "CH.Props.C04_signed_roundtrip",
    "CH.Props.C04_bool_roundtrip"
   ],
   "note": "floats are their bit patterns"
  },
  {
   "property": "C14",
   "status": "partial",
   "theorems": [
    "CH.Props.C14_type_name_roundtrip_partial",
    "CH.Props.C14_loaded_type_partial",
    "CH.Props.C14_map_key_violated",
    "CH.Props.C14_simple_agg_violated",
    "CH.Props.C14_simple_agg_array_violated",
    "CH.Props.C14_enum_quote_violated"
   ],
   "note": "proved for all nameable types of any nesting; false for comma-bearing map keys, parametrised types under SimpleAggregateFunction and enum names with quotes"
  },
  {
   "property": "C15",
   "status": "partial",
   "theorems": [
    "CH.Props.C15_no_panic_partial",
    "CH.Props.C15_unknown_is_error",
    "CH.Props.C15_panic_violated",
    "CH.Props.C15_load_panic_violated",
    "CH.Props.C15_panic_exact",
    "CH.Props.C15_unknown_never_loads"
   ],
   "note": "bare keywords and non-ASCII map keys panic; the texts that panic are characterised exactly; every text outside the grammar of C68 reads no column whatever bytes follow; proved panic-free for all well-bracketed expressions over arbitrary leaves"
  },
  {
   "property": "C59",
   "status": "partial",
   "theorems": [
    "CH.Props.C59_enum_decl_partial",
    "CH.Props.C59_out_of_range_rejected",
    "CH.Props.C59_enum8_wraps_violated"
   ],
   "note": "Enum8 numbers between 128 and 32767 are wrapped"
  },
  {
   "property": "C09",
   "status": "partial",
   "theorems": [
    "CH.Props.C09_column_roundtrip_partial",
    "CH.Props.C09_values_roundtrip_partial",
    "CH.Props.C09_datetime64_violated"
   ],
   "note": "proved for every nesting; DateTime64 and local date-time columns cannot be written (save unimplemented); names per C14"
  },
  {
   "property": "C17",
   "status": "partial",
   "theorems": [
    "CH.Props.C17_chunk_roundtrip_partial",
    "CH.Props.C17_chunk_column_partial",
    "CH.Props.C17_array_chunk_violated"
   ],
   "note": "false for array/map columns when earlier rows are non-empty; proved otherwise"
  },
  {
   "property": "C21",
   "status": "partial",
   "theorems": [
    "CH.Props.C21_low_cardinality_rows",
    "CH.Props.C21_received_extend_partial",
    "CH.Props.C21_dictionary_distinct",
    "CH.Props.C21_received_violated",
    "CH.Props.C21_nullable_violated",
    "CH.Props.C21_fixed_string_duplicates_violated"
   ],
   "note": "local columns of any length proved; received columns with dictionaries larger than rows+1, and nullable dictionaries, violate it"
  },
  {
   "property": "C22",
   "status": "proved",
   "theorems": [
    "CH.Props.C22_nullable_rows",
    "CH.Props.C22_nullable_bare",
    "CH.Props.C25_pushed_values_read_back"
   ],
   "note": "element types without DateTime64; low cardinality covered by C25_successful_pushes"
  },
  {
   "property": "C25",
   "status": "proved",
   "theorems": [
    "CH.Props.C25_pushed_values_read_back",
    "CH.Props.C25_push_appends",
    "CH.Props.C25_successful_pushes"
   ],
   "note": "elements in canonical form; DateTime64 elements are C29"
  },
  {
   "property": "C26",
   "status": "partial",
   "theorems": [
    "CH.Props.C26_fixed_string_rows_partial",
    "CH.Props.C26_zero_width_violated"
   ],
   "note": "width 0 divides by zero"
  },
  {
   "property": "C05",
   "status": "proved",
   "theorems": [
    "CH.Props.C05_answers_are_final",
    "CH.Props.C05_prefix_waits",
    "CH.Props.C05_consumes_prefix"
   ],
   "note": "all packets, compressed or not, any bytes"
  },
  {
   "property": "C06",
   "status": "proved",
   "theorems": [
    "CH.Props.C06_block_info_roundtrip",
    "CH.Props.C06_block_info_fields"
   ],
   "note": ""
  },
  {
   "property": "C07",
   "status": "partial",
   "theorems": [
    "CH.Props.C07_hello",
    "CH.Props.C07_hello_bad_zone",
    "CH.Props.C07_progress",
    "CH.Props.C07_profile_info",
    "CH.Props.C07_table_columns",
    "CH.Props.C07_pong_eof",
    "CH.Props.C07_exception_partial",
    "CH.Props.C07_exception_violated",
    "CH.Props.C07_data",
    "CH.Props.C07_data_block_partial"
   ],
   "note": "the trailing nested flag of an exception is not consumed; everything else proved for all revisions"
  },
  {
   "property": "C08",
   "status": "proved",
   "theorems": [
    "CH.Props.C08_unknown_packet",
    "CH.Props.C08_premature_data",
    "CH.Props.C08_only_known"
   ],
   "note": ""
  },
  {
   "property": "C10",
   "status": "partial",
   "theorems": [
    "CH.Props.C10_block_roundtrip_partial"
   ],
   "note": "same exclusions as C09 and C14 (DateTime64, ambiguous type names); any number of columns and rows"
  },
  {
   "property": "C11",
   "status": "partial",
   "theorems": [
    "CH.Props.C11_compressed_roundtrip_partial",
    "CH.Props.C11_sizes",
    "CH.Props.C11_large_violated",
    "CH.Props.C11_incompressible_violated",
    "CH.Props.C11_wrapped_violated"
   ],
   "note": "same exclusions as C10, and the frame limits; every codec, every hash. Violated for blocks beyond these limits: nothing, a part, or a frame nobody accepts is sent"
  },
  {
   "property": "C12",
   "status": "partial",
   "theorems": [
    "CH.Props.C12_checked_frame",
    "CH.Props.C12_no_panic_partial",
    "CH.Props.C12_small_frame_violated",
    "CH.Props.C12_only_checked_data"
   ],
   "note": "a frame announcing fewer than nine bytes panics; otherwise proved"
  },
  {
   "property": "C13",
   "status": "partial",
   "theorems": [
    "CH.Props.C13_framing_transparent",
    "CH.Props.C13_cut_independent",
    "CH.Props.C13_empty_frame_violated"
   ],
   "note": "proved for every cut into non-empty frames; an empty frame makes the reader wait for ever"
  },
  {
   "property": "C16",
   "status": "partial",
   "theorems": [
    "CH.Props.C16_chunks_partial",
    "CH.Props.C16_empty_block",
    "CH.Props.C16_no_rows_violated",
    "CH.Props.C16_zero_size_violated"
   ],
   "note": "a block with columns and no rows loses its columns; proved for all blocks with rows"
  },
  {
   "property": "C19",
   "status": "proved",
   "theorems": [
    "CH.Props.C19_concat",
    "CH.Props.C19_concat_rows",
    "CH.Props.C19_row_count"
   ],
   "note": ""
  },
  {
   "property": "C35",
   "status": "partial",
   "theorems": [
    "CH.Props.C35_column_list_partial",
    "CH.Props.C35_backquote_rejected",
    "CH.Props.C35_backslash_violated",
    "CH.Props.C35_empty_name_violated",
    "CH.Props.C35_numeric_violated",
    "CH.Props.C35_query_id"
   ],
   "note": "a backslash escapes the closing quote; empty names and numeric non-digits are sent bare; proved for all other names"
  },
  {
   "property": "C36",
   "status": "partial",
   "theorems": [
    "CH.Props.C36_params_take_effect",
    "CH.Props.C36_malformed_rejected",
    "CH.Props.C36_plain_value",
    "CH.Props.C36_double_decoding_violated",
    "CH.Props.C36_from_url"
   ],
   "note": "values are percent-decoded twice, so a value with a percent sign is altered; everything else proved"
  },
  {
   "property": "C37",
   "status": "proved",
   "theorems": [
    "CH.Props.C37_duration",
    "CH.Props.C37_optional_duration",
    "CH.Props.C37_duration_unique",
    "CH.Props.C37_other_values"
   ],
   "note": ""
  },
  {
   "property": "C38",
   "status": "partial",
   "theorems": [
    "CH.Props.C38_query_partial",
    "CH.Props.C38_query_id_violated",
    "CH.Props.C38_unnamed_setting_violated"
   ],
   "note": "the query id is sent empty (the user's id is dropped); a setting with an empty name ends the list; the rest proved"
  },
  {
   "property": "C39",
   "status": "proved",
   "theorems": [
    "CH.Props.C39_commands",
    "CH.Props.C39_block_sent",
    "CH.Props.C39_reading_unique",
    "CH.Props.C39_empty_data_bytes"
   ],
   "note": "data blocks under the conditions of C10/C11 (SendOK)"
  },
  {
   "property": "C58",
   "status": "partial",
   "theorems": [
    "CH.Props.C58_limit_partial",
    "CH.Props.C58_no_limit_violated"
   ],
   "note": "none becomes a zero timeout; operations within a set limit are not cut off"
  },
  {
   "property": "C40",
   "status": "proved",
   "theorems": [
    "CH.Props.C40_sent_in_order",
    "CH.Props.C40_sent_prefix",
    "CH.Props.C40_complete"
   ],
   "note": "every schedule of the socket"
  },
  {
   "property": "C41",
   "status": "proved",
   "theorems": [
    "CH.Props.C41_decodes",
    "CH.Props.C41_nothing_held_back",
    "CH.Props.C41_schedule_independent"
   ],
   "note": "every fragmentation of the byte stream"
  },
  {
   "property": "C42",
   "status": "partial",
   "theorems": [
    "CH.Props.C42_delivered_partial",
    "CH.Props.C42_lost_at_end_violated"
   ],
   "note": "messages that arrive together with the end of the connection are lost; proved when the end is seen in a later poll"
  },
  {
   "property": "C43",
   "status": "proved",
   "theorems": [
    "CH.Props.C43_read_wakeup",
    "CH.Props.C43_write_wakeup",
    "CH.Props.C43_stream_wakeup"
   ],
   "note": ""
  },
  {
   "property": "C44",
   "status": "proved",
   "theorems": [
    "CH.Props.C44_in_order",
    "CH.Props.C44_handed_back_once",
    "CH.Props.C44_sends_first",
    "CH.Props.C44_read_block"
   ],
   "note": ""
  },
  {
   "property": "C18",
   "status": "partial",
   "theorems": [
    "CH.Props.C18_insert_messages_partial",
    "CH.Props.C18_empty_insert_violated"
   ],
   "note": "an INSERT without rows sends the end of the data twice; proved for all sizes with rows"
  },
  {
   "property": "C45",
   "status": "proved",
   "theorems": [
    "CH.Props.C45_complete_answer",
    "CH.Props.C45_exception",
    "CH.Props.C45_lost",
    "CH.Props.C45_in_order",
    "CH.Props.C45_ends_only_at_eof"
   ],
   "note": "every packet sequence, any number of polls; a block is non-empty if it has columns, as in the code"
  },
  {
   "property": "C46",
   "status": "partial",
   "theorems": [
    "CH.Props.C46_no_leak_partial",
    "CH.Props.C46_leak_violated"
   ],
   "note": "proved for every session when ping_before_query is on (the default); false when it is off"
  },
  {
   "property": "C47",
   "status": "partial",
   "theorems": [
    "CH.Props.C47_ping_partial",
    "CH.Props.C47_query_partial",
    "CH.Props.C47_hello_violated",
    "CH.Props.C47_execute_violated",
    "CH.Props.C47_insert_violated",
    "CH.Props.C47_clear_violated",
    "CH.Props.C47_socket_failure"
   ],
   "note": "holds for ping and query streams; hello, execute, insert and the resynchronisation panic on a closed connection"
  },
  {
   "property": "C51",
   "status": "partial",
   "theorems": [
    "CH.Props.C51_failed_reconnections_partial",
    "CH.Props.C51_gives_up_partial",
    "CH.Props.C51_unbounded_violated"
   ],
   "note": "successful reconnections are not counted, so there is no bound when pings keep failing; failed reconnections are bounded by retries + 1"
  },
  {
   "property": "C52",
   "status": "partial",
   "theorems": [
    "CH.Props.C52_stays_bound_partial",
    "CH.Props.C52_recovers_partial",
    "CH.Props.C52_after_exception_violated",
    "CH.Props.C52_after_loss_violated",
    "CH.Props.C52_after_failed_check_violated",
    "CH.Props.C52_without_pool_violated"
   ],
   "note": "after a failed query or failed check the next query panics; executes, inserts and pings leave a usable handle"
  },
  {
   "property": "C60",
   "status": "proved",
   "theorems": [
    "CH.Props.C60_dropped",
    "CH.Props.C60_resync",
    "CH.Props.C60_old_exception",
    "CH.Props.C60_checked_first"
   ],
   "note": "if the connection is lost during resynchronisation see C47_clear_violated"
  },
  {
   "property": "C48",
   "status": "partial",
   "theorems": [
    "CH.Props.C48_single_thread_partial",
    "CH.Props.C48_exceeds_violated",
    "CH.Props.C48_overlapping_partial",
    "CH.Props.C48_twice_violated"
   ],
   "note": "proved for executions in which pool calls do not overlap; overlapping calls exceed the maximum, by as much as the maximum itself with two calls overlapping; with at most k calls in progress at any time, and no panic over a full idle store, there are at most twice the maximum and k connections"
  },
  {
   "property": "C49",
   "status": "partial",
   "theorems": [
    "CH.Props.C49_no_sharing",
    "CH.Props.C49_counter",
    "CH.Props.C49_exact_partial",
    "CH.Props.C49_idle_bounded",
    "CH.Props.C49_single_thread",
    "CH.Props.C49_underflow_violated"
   ],
   "note": "every interleaving: no connection in two places and an exact counter equation; on one thread all of it; overlapping calls can panic on a full idle store and drive the counter below zero"
  },
  {
   "property": "C50",
   "status": "partial",
   "theorems": [
    "CH.Props.C50_release_wakes_partial",
    "CH.Props.C50_waits_for_reason_partial",
    "CH.Props.C50_opening_has_waker_partial",
    "CH.Props.C50_forgotten_violated",
    "CH.Props.C50_race_violated"
   ],
   "note": "a call giving back or closing a connection wakes every registered task; a failed connection attempt wakes nobody else, and a race loses a wakeup"
  },
  {
   "property": "C53",
   "status": "partial",
   "theorems": [
    "CH.Props.C53_rotation_partial",
    "CH.Props.C53_all_hosts_partial",
    "CH.Props.C53_hosts",
    "CH.Props.C53_wraps_violated"
   ],
   "note": "for the first 2^64 connections"
  },
  {
   "property": "C30",
   "status": "partial",
   "theorems": [
    "CH.Props.C30_eq_partial",
    "CH.Props.C30_eq_overflow_violated",
    "CH.Props.C30_eq_release_violated",
    "CH.Props.C30_eq_release_partial",
    "CH.Props.C30_raise_partial",
    "CH.Props.C30_raise_overflow_violated",
    "CH.Props.C30_lower",
    "CH.Props.C30_hash_partial",
    "CH.Props.C30_hash_separates",
    "CH.Props.C30_hash_violated",
    "CH.Props.C30_of_i64",
    "CH.Props.C30_of_narrow_violated"
   ],
   "note": "comparison and raising the scale are exact when the rescaled number fits 64 bits and panic (or wrap) otherwise; lowering truncates toward zero always; hashing disagrees with equality across scales; Decimal::of truncates the factor for narrow sources"
  },
  {
   "property": "C31",
   "status": "partial",
   "theorems": [
    "CH.Props.C31_text_partial",
    "CH.Props.C31_negative_violated",
    "CH.Props.C31_negative_always_violated",
    "CH.Props.C31_scale_zero_violated"
   ],
   "note": "text is exact for every non-negative decimal and every decimal <= -1 with scale >= 1; wrong for every decimal strictly between -1 and 0 and (stray point) for scale 0"
  },
  {
   "property": "C54",
   "status": "partial",
   "theorems": [
    "CH.Props.C54_roundtrip_partial",
    "CH.Props.C54_owned_roundtrip",
    "CH.Props.C54_chrono_violated",
    "CH.Props.C54_date_keys_violated"
   ],
   "note": "owned -> borrowed -> owned is the identity on every tree without chrono timestamps and with hashable map keys; chrono timestamps and maps keyed by dates panic"
  },
  {
   "property": "C55",
   "status": "partial",
   "theorems": [
    "CH.Props.C55_ref_reflexive_partial",
    "CH.Props.C55_ref_kinds_violated",
    "CH.Props.C55_ref_dt64_violated",
    "CH.Props.C55_own_reflexive_partial",
    "CH.Props.C55_own_map_violated",
    "CH.Props.C55_ref_sound_partial",
    "CH.Props.C55_precision_violated",
    "CH.Props.C55_own_sound",
    "CH.Props.C55_column_sound_partial",
    "CH.Props.C55_column_reflexive_partial",
    "CH.Props.C55_column_violated",
    "CH.Props.C55_block_sound_partial",
    "CH.Props.C55_block_reflexive_partial",
    "CH.Props.C55_own_alike_partial",
    "CH.Props.C55_ref_alike_partial"
   ],
   "note": "soundness for every value of sane precision; reflexivity fails for Bool/IP/UUID references, for owned maps, and panics for DateTime64 before 1970"
  },
  {
   "property": "C56",
   "status": "partial",
   "theorems": [
    "CH.Props.C56_own",
    "CH.Props.C56_ref",
    "CH.Props.C56_hashable",
    "CH.Props.C56_panics_violated"
   ],
   "note": "equal values hash equally for all kinds, but hashing panics for most kinds, including ones that may be map keys"
  },
  {
   "property": "C57",
   "status": "partial",
   "theorems": [
    "CH.Props.C57_exact_partial",
    "CH.Props.C57_precision_violated",
    "CH.Props.C57_accepts_partial",
    "CH.Props.C57_wrapped_elements_violated",
    "CH.Props.C57_time_violated",
    "CH.Props.C57_rejects_partial",
    "CH.Props.C57_untyped_violated",
    "CH.Props.C57_no_panic_partial",
    "CH.Props.C57_adapters"
   ],
   "note": "reads that succeed are exact, corresponding types are accepted and others rejected; exceptions: arrays of LowCardinality/FixedString text, NULL and empty maps of other types, DateTime64 out of range panics"
  },
  {
   "property": "C20",
   "status": "proved",
   "theorems": [
    "CH.Props.C20_stored",
    "CH.Props.C20_succeeds",
    "CH.Props.C20_of_list",
    "CH.Props.C20_push_keeps",
    "CH.Props.C20_short_write",
    "CH.Props.C20_allocate_ends",
    "CH.Props.C20_load",
    "CH.Props.C20_save",
    "CH.Props.C20_hostile_length_violated",
    "CH.Props.C20_hostile_rows_violated"
   ],
   "note": "for every sequence of insertions the allocator can serve; a hostile length above isize::MAX panics instead (two _violated theorems)"
  },
  {
   "property": "C32",
   "status": "partial",
   "theorems": [
    "CH.Props.C32_row_partial",
    "CH.Props.C32_rows_partial",
    "CH.Props.C32_missing_violated",
    "CH.Props.C32_extra_violated",
    "CH.Props.C32_rejected_violated",
    "CH.Props.C32_duplicate_violated",
    "CH.Props.C32_type_violated",
    "CH.Props.C32_append_column",
    "CH.Props.C32_received",
    "CH.Props.C32_new_column",
    "CH.Props.C32_new_zone"
   ],
   "note": "rows with exactly the names of the block are appended whole, for any number of rows; rows with missing, extra or repeated names leave a ragged block, a rejected row leaves values behind, a value of another type panics"
  },
  {
   "property": "C33",
   "status": "partial",
   "theorems": [
    "CH.Props.C33_name",
    "CH.Props.C33_by_name",
    "CH.Props.C33_unknown_name",
    "CH.Props.C33_by_position",
    "CH.Props.C33_position_violated",
    "CH.Props.C33_row_violated",
    "CH.Props.C33_rows"
   ],
   "note": "lookup by name as stated; a row or a column position outside the block panics instead of being an error, for every block"
  },
  {
   "property": "C34",
   "status": "partial",
   "theorems": [
    "CH.Props.C34_column_partial",
    "CH.Props.C34_block_partial",
    "CH.Props.C34_whole",
    "CH.Props.C34_column_count",
    "CH.Props.C34_offered_partial",
    "CH.Props.C34_bad_address_violated",
    "CH.Props.C34_long_string_violated",
    "CH.Props.C34_narrow_decimal_violated",
    "CH.Props.C34_scale_overflow_violated",
    "CH.Props.C34_enum_names_violated",
    "CH.Props.C34_lowcard_type_violated",
    "CH.Props.C34_lowcard_time_violated",
    "CH.Props.C34_map_partial",
    "CH.Props.C34_map_refused",
    "CH.Props.C34_map_unreadable"
   ],
   "note": "Conversion of columns and blocks, with what the receiver reads; maps standing alone whose keys and values both convert (C34_map_partial). LowCardinality(DateTime) targets included. Maps inside other types are not followed; by C34_map_unreadable such maps have no readable row with an entry. The _violated theorems and C34_map_refused show where the code breaks the claim (bad addresses, long strings, large decimals, enum names, low-cardinality targets, maps)."
  },
  {
   "property": "C23",
   "status": "partial",
   "theorems": [
    "CH.Props.C23_partial",
    "CH.Props.C23_received_partial",
    "CH.Props.C23_rows_violated",
    "CH.Props.C23_concat_partial",
    "CH.Props.C23_refused_partial",
    "CH.Props.C23_flag_violated",
    "CH.Props.C23_date_violated",
    "CH.Props.C23_inner_date_violated",
    "CH.Props.C23_chrono_violated",
    "CH.Props.C23_address_violated",
    "CH.Props.C23_dictionary_violated",
    "CH.Props.C23_concat_violated",
    "CH.Props.C23_levels",
    "CH.Props.C23_deep_violated",
    "CH.Props.C23_depth_violated"
   ],
   "note": "numbers, addresses, strings, decimals, arrays, nullables, maps, and dates, times and low cardinality standing alone, in one column or several blocks put together, local or received; violated for dates west of UTC, dates/times/low cardinality inside other types, NULL flags other than 0 and 1, locally built DateTime<Tz> columns, addresses of another type, dictionary indices out of range, types more than 255 deep"
  },
  {
   "property": "C24",
   "status": "partial",
   "theorems": [
    "CH.Props.C24_partial",
    "CH.Props.C24_part_partial",
    "CH.Props.C24_array_in_map_violated",
    "CH.Props.C24_arrays_violated",
    "CH.Props.C24_fixed_key_violated",
    "CH.Props.C24_array_key_violated",
    "CH.Props.C24_same_key",
    "CH.Props.C24_insert",
    "CH.Props.C24_arrays_types_violated"
   ],
   "note": "maps that are the column, the values of such maps, or the elements of one array around them, with number, address and string keys; violated for maps deeper in arrays and for fixed-string or array keys"
  },
  {
   "property": "C27",
   "status": "proved",
   "theorems": [
    "CH.Props.C27_stored",
    "CH.Props.C27_optional",
    "CH.Props.C27_received"
   ],
   "note": "typed access, iteration and wire form of columns built, optional columns and columns received; addresses inside other types are covered by C23 and C57"
  },
  {
   "property": "C28",
   "status": "partial",
   "theorems": [
    "CH.Props.C28_partial",
    "CH.Props.C28_west_violated",
    "CH.Props.C28_range_violated"
   ],
   "note": "dates in range by typed access in any zone and by iteration not west of UTC; west of UTC and out of range shown to fail"
  },
  {
   "property": "C29",
   "status": "partial",
   "theorems": [
    "CH.Props.C29_partial",
    "CH.Props.C29_sent_partial",
    "CH.Props.C29_seconds_partial",
    "CH.Props.C29_before_violated",
    "CH.Props.C29_round_violated",
    "CH.Props.C29_far_violated",
    "CH.Props.C29_wrap_violated"
   ],
   "note": "from 1970 on, and whole seconds before; fractions before 1970, far years and the range of DateTime shown to fail"
  },
  {
   "property": "C64",
   "status": "partial",
   "theorems": [
    "CH.Props.C64_partial",
    "CH.Props.C64_optional_partial",
    "CH.Props.C64_vectors_partial",
    "CH.Props.C64_maps_partial",
    "CH.Props.C64_scales_violated",
    "CH.Props.C64_times_violated",
    "CH.Props.C64_flags_violated",
    "CH.Props.C64_zone",
    "CH.Props.C64_zulu",
    "CH.Props.C64_decimal_type",
    "CH.Props.C64_type"
   ],
   "note": "values in range of the column type; mixed scales, fractions, times out of range and bool keys shown to fail"
  },
  {
   "property": "C61",
   "status": "partial",
   "theorems": [
    "CH.Props.C61_credentials",
    "CH.Props.C61_database_partial",
    "CH.Props.C61_database_violated"
   ],
   "note": "Any user name and password written percent-encoded are the ones used. The database is used as written: names needing an escape are violated."
  },
  {
   "property": "C65",
   "status": "partial",
   "theorems": [
    "CH.Props.C65_fetch_all",
    "CH.Props.C65_failure",
    "CH.Props.C65_only_complete",
    "CH.Props.C65_no_columns_violated"
   ],
   "note": "complete answers with columns give exactly their rows, other answers an error; an answer without columns makes fetch_all panic"
  },
  {
   "property": "C66",
   "status": "partial",
   "theorems": [
    "CH.Props.C66_rows",
    "CH.Props.C66_failure",
    "CH.Props.C66_in_order",
    "CH.Props.C66_same_as_fetch_all",
    "CH.Props.C66_first_block_violated"
   ],
   "note": "all rows but those of the first block, which the streams take to be a header; a server sending rows there loses them"
  },
  {
   "property": "C67",
   "status": "partial",
   "theorems": [
    "CH.Props.C67_others",
    "CH.Props.C67_rows",
    "CH.Props.C67_flat",
    "CH.Props.C67_new",
    "CH.Props.C67_copy",
    "CH.Props.C67_drop",
    "CH.Props.C67_copy_dropped",
    "CH.Props.C67_low_cardinality_known",
    "CH.Props.C67_copy_violated",
    "CH.Props.C67_low_cardinality_violated"
   ],
   "note": "no append, copy or drop ever changes another column; columns without an inner column take values whatever copies exist; copied nullable, array, map and aggregate columns panic on any append, copied low-cardinality columns on new values, until the copy is dropped"
  },
  {
   "property": "C62",
   "status": "partial",
   "theorems": [
    "CH.Props.C62_alive",
    "CH.Props.C62_closed_iff",
    "CH.Props.C62_closed_partial",
    "CH.Props.C62_permanent",
    "CH.Props.C62_idle_violated",
    "CH.Props.C62_opening_violated"
   ],
   "note": "exact condition under which everything is closed; it is met when the pool is used on one thread, no handle is dropped while a connection is being opened and no opening is abandoned; otherwise idle handles or the opening future keep the pool alive in a reference cycle and connections are never closed"
  },
  {
   "property": "C68",
   "status": "partial",
   "theorems": [
    "CH.Props.C68_spellings_exact",
    "CH.Props.C68_meaning_unique",
    "CH.Props.C68_spelling_irrelevant",
    "CH.Props.C68_nested_nullable_refused",
    "CH.Props.C68_malformed_accepted_violated"
   ],
   "note": "the accepted texts and their meanings are characterised exactly, for all texts; partial because the accepted set contains malformed names (any brackets, text after the closing parenthesis, scale above precision), shown by the violation theorem"
  },
  {
   "property": "C69",
   "status": "partial",
   "theorems": [
    "CH.Props.C69_reaches",
    "CH.Props.C69_fails_only_if_all_refuse",
    "CH.Props.C69_connecting_no_panic",
    "CH.Props.C69_open",
    "CH.Props.C69_options_failure",
    "CH.Props.C69_secure_is_encrypted",
    "CH.Props.C69_secure_param",
    "CH.Props.C69_url_secure",
    "CH.Props.C69_tls_no_fallback_violated",
    "CH.Props.C69_secure_ignored_violated"
   ],
   "note": "proved without bound on addresses and polls; partial because a build without the feature tls takes `secure=true` for a server setting and connects in plain text, and a failing TLS handshake is not followed by the next address (violation theorems)"
  },
  {
   "property": "C70",
   "status": "proved",
   "theorems": [
    "CH.Props.C70_new",
    "CH.Props.C70_call",
    "CH.Props.C70_next",
    "CH.Props.C70_items",
    "CH.Props.C70_waits",
    "CH.Props.C70_progress"
   ],
   "note": "simulation between the byte-level transport and the connection over which the client operations are modelled; sockets that end or fail are excluded here, they are the subject of C42 and C47"
  },
  {
   "property": "C71",
   "status": "partial",
   "theorems": [
    "CH.Props.C71_total",
    "CH.Props.C71_execute",
    "CH.Props.C71_ping",
    "CH.Props.C71_hello",
    "CH.Props.C71_clear",
    "CH.Props.C71_ping_left_over",
    "CH.Props.C71_insert_query",
    "CH.Props.C71_insert_block",
    "CH.Props.C71_insert_error",
    "CH.Props.C71_insert_tail_error",
    "CH.Props.C71_insert_progress_violated"
   ],
   "note": "exact outcome of each operation for every sequence of messages; partial because progress reports have no place in an INSERT for the code (violation theorem), and because the end of the connection panics in most operations (C47)"
  },
  {
   "property": "C72",
   "status": "partial",
   "theorems": [
    "CH.Props.C72_settings",
    "CH.Props.C72_integer_partial",
    "CH.Props.C72_negative_violated",
    "CH.Props.C72_url_old_server_violated"
   ],
   "note": "settings as a map: proved exactly; partial because negative integers are sent as 2^64 minus their size and settings of a URL are misread by servers before revision 54429 (violation theorems)"
  },
  {
   "property": "C73",
   "status": "partial",
   "theorems": [
    "CH.Props.C73_next",
    "CH.Props.C73_calls",
    "CH.Props.C73_partial",
    "CH.Props.C73_concat_partial",
    "CH.Props.C73_skip_violated"
   ],
   "note": "next is proved to follow the iteration of C23 on every column; all calls are proved equal to those on a list where the iteration yields as many items as rows; partial as C23 is, and because nth passes over a missing dictionary entry where next panics"
  },
  {
   "property": "C63",
   "status": "partial",
   "theorems": [
    "CH.Props.C63_message_partial",
    "CH.Props.C63_data_partial",
    "CH.Props.C63_block_partial",
    "CH.Props.C63_compressed_partial",
    "CH.Props.C63_length_violated",
    "CH.Props.C63_hello_violated",
    "CH.Props.C63_rows_violated",
    "CH.Props.C63_offset_violated",
    "CH.Props.C63_flags_violated",
    "CH.Props.C63_uneven_violated",
    "CH.Props.C63_zero_width_violated"
   ],
   "note": "false as stated: eleven bytes in answer to the hello suffice. Proved: a complete list of causes, one of which is found in the bytes whenever the reader panics; and, for the causes, that they do bring the reader down. For types outside Parsed/OwnRows (names that make the parser panic, fixed strings of 0 or of 128 bytes and more, low-cardinality columns of a block) the name itself is listed as the cause"
  },
  {
   "property": "C74",
   "status": "partial",
   "theorems": [
    "CH.Props.C74_text_partial",
    "CH.Props.C74_numbers_told_apart",
    "CH.Props.C74_table",
    "CH.Props.C74_texts_confused_violated",
    "CH.Props.C74_times_violated",
    "CH.Props.C74_enum_violated",
    "CH.Props.C74_map_violated",
    "CH.Props.C74_map_text",
    "CH.Props.C74_enum_text",
    "CH.Props.C74_early_time_violated",
    "CH.Props.C74_no_columns_violated"
   ],
   "note": "texts proved for all values without times, enums and maps, for which value and borrowed value are shown differently; the table is proved for every block with columns whose cells have a text. Texts of floats, IPv6 addresses and times are parameters; formats other than {} and {:#} are not modelled"
  },
  {
   "property": "C75",
   "status": "partial",
   "theorems": [
    "CH.Props.C75_read_back_partial",
    "CH.Props.C75_back_partial",
    "CH.Props.C75_exact_partial",
    "CH.Props.C75_takes_partial",
    "CH.Props.C75_type",
    "CH.Props.C75_agree",
    "CH.Props.C75_date_violated",
    "CH.Props.C75_utc_violated",
    "CH.Props.C75_octets_violated",
    "CH.Props.C75_chrono_violated",
    "CH.Props.C75_keys_violated",
    "CH.Props.C75_date_keys_violated",
    "CH.Props.C75_precision_violated",
    "CH.Props.C75_time_violated",
    "CH.Props.C75_default"
   ],
   "note": "fails for dates outside 1970..2149, UTC times outside 1970..2106 or with a fraction, [u8; 4] read as an address, borrowed DateTime<Tz>, maps keyed by bool, date or time; proved for everything else"
  },
  {
   "property": "C76",
   "status": "partial",
   "theorems": [
    "CH.Props.C76_save_partial",
    "CH.Props.C76_load_partial",
    "CH.Props.C76_determined",
    "CH.Props.C76_determined_maps",
    "CH.Props.C76_block_write_partial",
    "CH.Props.C76_block_load_partial",
    "CH.Props.C76_cast_partial",
    "CH.Props.C76_insert_partial",
    "CH.Props.C76_array_low_violated",
    "CH.Props.C76_array_low_save_violated",
    "CH.Props.C76_low_null_violated",
    "CH.Props.C76_low_null_save_violated",
    "CH.Props.C76_dt64_violated",
    "CH.Props.C76_other_keys_violated",
    "CH.Props.C76_block_determined"
   ],
   "note": "fails for LowCardinality inside other types, LowCardinality(Nullable), writing DateTime64 columns, and reading maps keyed by other than integers and strings (the latter shown for every such type); proved for every other type"
  },
  {
   "property": "C77",
   "status": "partial",
   "theorems": [
    "CH.Props.C77_answer_partial",
    "CH.Props.C77_fetch_all_partial",
    "CH.Props.C77_stream_partial",
    "CH.Props.C77_sent"
   ],
   "note": "proved for all column types but those that C76 shows to be misread (LowCardinality inside other types, LowCardinality(Nullable)) and maps keyed by other than integers and strings"
  },
  {
   "property": "C78",
   "status": "partial",
   "theorems": [
    "CH.Props.C78_insert_partial",
    "CH.Props.C78_select_partial",
    "CH.Props.C78_large_partial",
    "CH.Props.C78_large_cast_partial"
   ],
   "note": "blocks sent in one piece, and blocks of any size for tables without arrays and maps (C17 shows that arrays are sent wrongly from the second piece on), for the conversions and types of C34 and C77"
  },
  {
   "property": "C79",
   "status": "proved",
   "theorems": [
    "CH.Props.C79_one",
    "CH.Props.C79_sequence",
    "CH.Props.C79_no_memory"
   ],
   "note": "the server answers completely and without exceptions; without ping_before_query an abandoned answer does reach the next query (C46)"
  },
  {
   "property": "C80",
   "status": "proved",
   "theorems": [
    "CH.Props.C80_reads",
    "CH.Props.C80_value"
   ],
   "note": "little-endian machine; pointers are offsets into the buffer"
  },
  {
   "property": "C81",
   "status": "partial",
   "theorems": [
    "CH.Props.C81_one_partial",
    "CH.Props.C81_sequence_partial",
    "CH.Props.C52_after_exception_violated",
    "CH.Props.C52_after_loss_violated"
   ],
   "note": "the answer of a query that breaks off must be dropped before that point is read: otherwise the next operation panics (C52_after_exception_violated); a connection closed in the middle of an answer panics too (C47)"
  },
  {
   "property": "C82",
   "status": "proved",
   "theorems": [
    "CH.Props.C82_operation",
    "CH.Props.C82_database",
    "CH.Props.C82_all_sent"
   ],
   "note": "operations over the socket are relations (`Model/Socket`): parser panics, encoder panics and ping timeouts have no result there; sockets that do not fail or end (failures: C47, C81); DataEncodes: the data of inserts has an encoding"
  },
  {
   "property": "C83",
   "status": "partial",
   "theorems": [
    "CH.Props.C83_url_password_violated",
    "CH.Props.C83_hello_password_violated",
    "CH.Props.C83_builder_partial"
   ],
   "note": "the address kept from the URL still holds user name and password and is logged twice per connection: every password given in a URL is revealed; passwords set with Options::password are not"
  },
  {
   "property": "C84",
   "status": "proved",
   "theorems": [
    "CH.Props.C84_heard",
    "CH.Props.C84_operation",
    "CH.Props.C84_sequence",
    "CH.Props.C84_executed",
    "CH.Props.C84_answered",
    "CH.Props.C84_selected",
    "CH.Props.C84_executed_checked",
    "CH.Props.C84_inserted",
    "CH.Props.C84_inserted_checked",
    "CH.Props.C84_selected_checked"
   ],
   "note": "operations over the socket are relations (`Model/Socket`): parser panics, encoder panics and ping timeouts have no result there; which failures are heard is not determined (bytes that arrive together with a failure may be lost for the operation, as `exDown` shows); C84_executed, C84_inserted and C84_selected are without the ping before, the _checked ones with it; DataEncodes: the data of inserts has an encoding"
  },
  {
   "property": "C85",
   "status": "partial",
   "theorems": [
    "CH.Props.C85_replies",
    "CH.Props.C85_left_behind",
    "CH.Props.C85_sent_ping",
    "CH.Props.C85_sent_execute",
    "CH.Props.C85_sent_insert",
    "CH.Props.C85_resumed",
    "CH.Props.C85_goes_on_partial",
    "CH.Props.C85_check_violated"
   ],
   "note": "fails for an operation dropped while its connection is checked: the handle stays detached from its pool and the next operation panics (C85_check_violated); everything else proved. Time is not modelled: a timeout may end any wait. C85_replies extends C84_operation to checks whose pings time out"
  },
  {
   "property": "C86",
   "status": "partial",
   "theorems": [
    "CH.Props.C86_tasks_partial",
    "CH.Props.C86_reused",
    "CH.Props.C86_idle",
    "CH.Props.C86_other_task_violated"
   ],
   "note": "fails when the server closes a connection that lies in the pool with the rest of an abandoned answer of which the end has not come: the next task to get it panics (C86_other_task_violated). Proved for everything else but the use of a handle after an exception at the end of a query's result (C52). Operations other than reading streams are atomic here; the pool's own concurrency is C48-C50, the sockets are C82-C85"
  },
  {
   "property": "C87",
   "status": "proved",
   "theorems": [
    "CH.Props.C87_one_end",
    "CH.Props.C87_determined",
    "CH.Props.C87_next",
    "CH.Props.C87_waits",
    "CH.Props.C87_in_time"
   ],
   "note": "that there is an outcome in every case also shows that the relations of Model/Socket, about which C82, C84 and C85 speak, miss none. A socket whose script has run out is not ready for ever; that a reply comes if the socket goes on is C82"
  },
  {
   "property": "C88",
   "status": "partial",
   "theorems": [
    "CH.Props.C88_order",
    "CH.Props.C88_oldest",
    "CH.Props.C88_kept_partial",
    "CH.Props.C88_kept_tight",
    "CH.Props.C88_minimum_violated",
    "CH.Props.C88_lost",
    "CH.Props.C88_unfinished",
    "CH.Props.C88_given_back",
    "CH.Props.C88_given_back_is_dropHandle",
    "CH.Props.C88_handed",
    "CH.Props.C88_handed_is_getHandle"
   ],
   "note": "Order, loss and unfinished connections are proved for every interleaving. That at most the minimum is kept fails when handles are dropped at the same time (C88_minimum_violated); with at most k calls in progress at any time at most k - 1 more are kept (C88_kept_partial; exactly the property for k = 1), and for every k and all limits that many are (C88_kept_tight). C88_given_back_is_dropHandle and C88_handed_is_getHandle connect the concurrent model of the pool with the one C86 uses."
  },
  {
   "property": "C89",
   "status": "partial",
   "theorems": [
    "CH.Props.C89_whole_partial",
    "CH.Props.C89_cut_partial",
    "CH.Props.C89_exception_partial",
    "CH.Props.C89_prefix_partial",
    "CH.Props.C89_served_partial",
    "CH.Props.C89_checked_partial",
    "CH.Props.C89_checked_cut_partial",
    "CH.Props.C89_unanswered_partial"
   ],
   "note": "For all answers whose column types C77 covers (not LowCardinality inside other types or of Nullable, which the code misreads, nor maps keyed by other than integers and strings)."
  },
  {
   "property": "C90",
   "status": "partial",
   "theorems": [
    "CH.Props.C90_value",
    "CH.Props.C90_column_partial",
    "CH.Props.C90_west_violated",
    "CH.Props.C90_range_violated",
    "CH.Props.C90_order",
    "CH.Props.C90_text",
    "CH.Props.C90_text_inj",
    "CH.Props.C90_clock",
    "CH.Props.C90_clock_inj",
    "CH.Props.C90_clock64"
   ],
   "note": "Dates before 1970-01-01 or after 2149-06-06 are silently replaced by others (C90_range_violated); iteration over a column in a zone west of UTC gives the day before each date (C90_west_violated). The rest is proved. The functions of chrono are modelled as it documents them."
  },
  {
   "property": "C91",
   "status": "partial",
   "theorems": [
    "CH.Props.C91_inserted_partial",
    "CH.Props.C91_inserted_checked_partial",
    "CH.Props.C91_pieces_partial",
    "CH.Props.C91_large_partial",
    "CH.Props.C91_large_checked_partial"
   ],
   "note": "For the column types for which conversion and the native format are right (C34, C76); blocks sent in more than one piece without arrays and maps (C17). An INSERT without rows is C18_empty_insert_violated."
  },
  {
   "property": "C92",
   "status": "partial",
   "theorems": [
    "CH.Props.C92_one_reading",
    "CH.Props.C92_round_trip_partial",
    "CH.Props.C92_round_trip_checked_partial",
    "CH.Props.C92_one_reading_maps",
    "CH.Props.C92_round_trip_maps_partial",
    "CH.Props.C92_round_trip_maps_checked_partial"
   ],
   "note": "For the conversions and types of C91 and C89; with arrays and maps only in what is sent as one piece (C17: they are sent wrongly from the second piece on); the entries of maps may come in another order."
  },
  {
   "property": "C93",
   "status": "partial",
   "theorems": [
    "CH.Props.C93_query",
    "CH.Props.C93_query_read",
    "CH.Props.C93_execute_partial",
    "CH.Props.C93_insert_partial",
    "CH.Props.C93_contexts",
    "CH.Props.C93_query_contexts",
    "CH.Props.C93_execute_violated",
    "CH.Props.C93_insert_violated"
   ],
   "note": "Holds for queries. execute() and insert() copy the context before the check (lib.rs:399, 454), so after a reconnection to a server of another revision their statement is written for the server that is gone; for them the claim is proved when the revision has not changed, and refuted otherwise."
  },
  {
   "property": "C94",
   "status": "partial",
   "theorems": [
    "CH.Props.C94_rounding",
    "CH.Props.C94_of_partial",
    "CH.Props.C94_refused",
    "CH.Props.C94_error",
    "CH.Props.C94_of_violated",
    "CH.Props.C94_single_violated",
    "CH.Props.C94_negative_violated",
    "CH.Props.C94_nan_violated",
    "CH.Props.C94_back",
    "CH.Props.C94_round_trip_partial",
    "CH.Props.C94_round_trip_violated",
    "CH.Props.C94_integer",
    "CH.Props.C94_quotient",
    "CH.Props.C94_nearest_partial",
    "CH.Props.C94_quotient_violated"
   ],
   "note": "Proved when the factor and the product with it are numbers of the type; in general the result differs by less than one unit and what the rounding of the product adds (C94_error). Refuted otherwise: 0.29 at scale 2 becomes 0.28, also after a round trip; for f32 the factors from 10^11 on are not exact; numbers that are too low become i64::MIN and NaN becomes 0 without a panic. The way back is the IEEE quotient of the rounded digits and factor (C94_quotient), the nearest number if the digits fit, otherwise refuted (C94_quotient_violated)."
  },
  {
   "property": "C95",
   "status": "partial",
   "theorems": [
    "CH.Props.C95_ends",
    "CH.Props.C95_told_alone",
    "CH.Props.C95_told",
    "CH.Props.C95_first_partial",
    "CH.Props.C95_starves_violated"
   ],
   "note": "Termination of calls left alone and the answer to every poll are proved. Service is not fair: all waiting tasks are woken and the first to poll takes the connection, which may be a task that did not wait (C95_starves_violated, on one thread and without bound); what holds is that the first to poll gets one (C95_first_partial)."
  },
  {
   "property": "C96",
   "status": "partial",
   "theorems": [
    "CH.Props.C96_decoded",
    "CH.Props.C96_only",
    "CH.Props.C96_carried",
    "CH.Props.C96_block",
    "CH.Props.C96_checked_partial",
    "CH.Props.C96_short_violated",
    "CH.Props.C96_own_partial"
   ],
   "note": "The decompressor is written out after the LZ4 block format (it is C code outside the repository), the checksum is the model of city.cc. The status of LZ4_decompress_safe is only tested for being negative: a frame that announces more than it holds is accepted and its data are filled up with zeros (C96_short_violated); hence C96_checked_partial."
  },
  {
   "property": "C97",
   "status": "partial",
   "theorems": [
    "CH.Props.C97_waiting",
    "CH.Props.C97_outcome",
    "CH.Props.C97_text",
    "CH.Props.C97_kind_partial",
    "CH.Props.C97_kind_violated",
    "CH.Props.C97_unknown",
    "CH.Props.C97_server_partial",
    "CH.Props.C97_server_violated",
    "CH.Props.C97_codes"
   ],
   "note": "Waiting is proved exactly, and that the text of the cause is kept. Refuted: every error of the reader but those of input and output is reported as Error::Io with the cause as a text, so a caller cannot find DriverError::UnknownPacket; the text of an exception is ambiguous if its name has a parenthesis, and has no stack trace."
  },
  {
   "property": "C98",
   "status": "partial",
   "theorems": [
    "CH.Props.C98_same_answer",
    "CH.Props.C98_reference_stays",
    "CH.Props.C98_last_call",
    "CH.Props.C98_settings",
    "CH.Props.C98_url_and_calls",
    "CH.Props.C98_bad_url_partial",
    "CH.Props.C98_bad_url_reported",
    "CH.Props.C98_bad_url_violated",
    "CH.Props.C98_pool_partial",
    "CH.Props.C98_no_maximum_violated"
   ],
   "note": "Proved for all sources, chains and URLs. Refuted: of two overlapping calls on a pool with a bad URL the second waits for ever (nothing wakes it when the first fails), and a maximum of zero is accepted by URL and calls but makes Pool::new panic. The setters of the feature tls are not modelled."
  },
  {
   "property": "C99",
   "status": "partial",
   "theorems": [
    "CH.Props.C99_read_to_end",
    "CH.Props.C99_consume",
    "CH.Props.C99_buffer",
    "CH.Props.C99_constants",
    "CH.Props.C99_vector",
    "CH.Props.C99_bool_partial",
    "CH.Props.C99_bool_violated",
    "CH.Props.C99_compress_partial",
    "CH.Props.C99_capacity_violated",
    "CH.Props.C99_decompress",
    "CH.Props.C99_types",
    "CH.Props.C99_types_once"
   ],
   "note": "Proved for the buffer, for vectors, for the memory lent to LZ4 and for the cache of types; the capacity told to LZ4 when compressing is nine bytes too large, harmless only because LZ4 keeps to its own bound; the simplifications of the transport, reader and type models are thereby justified. Refuted: a byte other than 0 and 1 in a Bool column becomes the memory of a bool, which is undefined behaviour. The raw pointers of the iterators are C23 and C73."
  },
  {
   "property": "C100",
   "status": "partial",
   "theorems": [
    "CH.Props.C100_url_partial"
   ],
   "note": "End to end from the text of the URL through the options, the opening of the connection and the encoding to what a server reads. Excluded because the code is wrong there: databases whose names need escapes (C61_database_violated), servers before revision 54429 (C72_url_old_server_violated), nameless parameters (C38_unnamed_setting_violated)."
  },
  {
   "property": "C101",
   "status": "partial",
   "theorems": [
    "CH.Props.C101_text",
    "CH.Props.C101_numbers_partial",
    "CH.Props.C101_limits",
    "CH.Props.C101_twice_violated",
    "CH.Props.C101_missed_violated",
    "CH.Props.C101_absurd_violated",
    "CH.Props.C101_tasks_violated"
   ],
   "note": "The text is right for all numbers. The numbers are right when no call is in progress (after any interleaving without the panic of C49), and within their limits at any moment when the uses of the pool do not overlap. The full claim is false: the four reads are not one snapshot (a connection counted twice, or not at all), the counter wraps after the panic of C49, and a task polled twice is counted twice."
  },
  {
   "property": "C102",
   "status": "partial",
   "theorems": [
    "CH.Props.C102_uvarint",
    "CH.Props.C102_array_partial",
    "CH.Props.C102_array_decrease",
    "CH.Props.C102_array_violated",
    "CH.Props.C102_map_partial",
    "CH.Props.C102_map_decrease",
    "CH.Props.C102_map_violated",
    "CH.Props.C102_pool_stored",
    "CH.Props.C102_pool_read",
    "CH.Props.C102_pool_ends",
    "CH.Props.C102_pool_same",
    "CH.Props.C102_pool_violated",
    "CH.Props.C102_scale_partial",
    "CH.Props.C102_scale_same",
    "CH.Props.C102_time_same",
    "CH.Props.C102_equal_same",
    "CH.Props.C102_scale_violated",
    "CH.Props.C102_of_partial",
    "CH.Props.C102_of_violated",
    "CH.Props.C102_time_partial",
    "CH.Props.C102_time_violated",
    "CH.Props.C102_precision_violated",
    "CH.Props.C102_store",
    "CH.Props.C102_equal_partial",
    "CH.Props.C102_equal_violated",
    "CH.Props.C30_eq_release_partial",
    "CH.Props.C30_eq_release_violated"
   ],
   "note": "Proved in full for variable-length integers (where C02 even holds, unlike in builds with checks), for storing times and for the safety of the string pool (C20 without checks). False for decimals and for reading and comparing times: products wrap and other numbers result; for these the theorems say exactly when the number is right."
  },
  {
   "property": "C103",
   "status": "partial",
   "theorems": [
    "CH.Props.C103_little_partial",
    "CH.Props.C103_models",
    "CH.Props.C103_own",
    "CH.Props.C103_exactly_partial",
    "CH.Props.C103_numbers_violated",
    "CH.Props.C103_offsets_violated"
   ],
   "note": "True on little-endian machines, and these are what the other models describe. False on big-endian ones: the memory of the numbers is sent as it is, so that exactly the columns of numbers that read the same in both directions are right; offsets of arrays are written in one order and read in the other."
  },
  {
   "property": "C104",
   "status": "partial",
   "theorems": [
    "CH.Props.C104_bounded_partial",
    "CH.Props.C104_depth",
    "CH.Props.C104_unbounded_violated"
   ],
   "note": "False: the depth is bounded by the length of the name only (one activation for six characters), and names of any length are accepted, with no rows in the column. How much memory an activation takes is not modelled."
  },
  {
   "property": "C105",
   "status": "partial",
   "theorems": [
    "CH.Props.C105_string_partial",
    "CH.Props.C105_wide",
    "CH.Props.C105_length",
    "CH.Props.C105_string_violated",
    "CH.Props.C105_array_partial",
    "CH.Props.C105_array_wide",
    "CH.Props.C105_array_violated"
   ],
   "note": "True for lengths that fit, and always with 64-bit words, which the other models have. False with narrower words: `as usize` cuts lengths and offsets off."
  },
  {
   "property": "C106",
   "status": "partial",
   "theorems": [
    "CH.Props.C106_same",
    "CH.Props.C106_read_partial",
    "CH.Props.C106_numbers",
    "CH.Props.C106_kept",
    "CH.Props.C106_pieces",
    "CH.Props.C106_block_partial",
    "CH.Props.C106_pool",
    "CH.Props.C106_again_violated",
    "CH.Props.C106_text_violated",
    "CH.Props.C106_rows_violated"
   ],
   "note": "Proved for columns, and blocks of any number of columns, that have been read to their end (factor 184, by the string pool; 1 for numbers), with a bound from below (C106_kept). Servers that send what they announce never make an attempt at reading exceed it, in whatever pieces the column comes (C106_pieces). False otherwise: memory is asked for as soon as a length or number of rows is known, so that ten bytes can ask for almost 2^63."
  }
 ]
}