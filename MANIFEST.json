{
 "claims": [
  {
   "property": "C01",
   "status": "proved",
   "theorems": [
    "Nrbf.C01_terminates",
    "Nrbf.C01_recursion",
    "Nrbf.C01_record_loop",
    "Nrbf.C01_array_loops"
   ],
   "note": "every input; iteration and depth counters proved never to run out"
  },
  {
   "property": "C02",
   "status": "proved",
   "theorems": [
    "Nrbf.C02_cause",
    "Nrbf.C02_bad_array",
    "Nrbf.C02_panics",
    "Nrbf.C02_no_panic",
    "Nrbf.C02_witness"
   ],
   "note": "every input; the cause of every panic, and the converse for arrays at the top level; exact at any depth in C61"
  },
  {
   "property": "C03",
   "status": "proved",
   "theorems": [
    "Nrbf.C03_complete_message"
   ],
   "note": ""
  },
  {
   "property": "C04",
   "status": "proved",
   "theorems": [
    "Nrbf.C04_header_valid",
    "Nrbf.C04_header_id_ignored",
    "Nrbf.C04_record_type",
    "Nrbf.C04_fields",
    "Nrbf.C04_truncated"
   ],
   "note": ""
  },
  {
   "property": "C05",
   "status": "proved",
   "theorems": [
    "Nrbf.C05_strings_utf8"
   ],
   "note": "UTF-8 specified through Lean's own characters"
  },
  {
   "property": "C06",
   "status": "proved",
   "theorems": [
    "Nrbf.C06_strings_borrowed"
   ],
   "note": ""
  },
  {
   "property": "C07",
   "status": "proved",
   "theorems": [
    "Nrbf.C07_error_position"
   ],
   "note": ""
  },
  {
   "property": "C08",
   "status": "proved",
   "theorems": [
    "Nrbf.C08_message",
    "Nrbf.C08_string_round_trip"
   ],
   "note": "in a message, and the parser on its own"
  },
  {
   "property": "C09",
   "status": "proved",
   "theorems": [
    "Nrbf.C09_accepted_iff",
    "Nrbf.C09_rejected",
    "Nrbf.C09_length_bound",
    "Nrbf.C09_overlong",
    "Nrbf.C09_message"
   ],
   "note": "the parser on its own; a malformed string in a message"
  },
  {
   "property": "C10",
   "status": "proved",
   "theorems": [
    "Nrbf.C10_unsigned",
    "Nrbf.C10_signed",
    "Nrbf.C10_numbers_in_range",
    "Nrbf.C10_message"
   ],
   "note": "arrays of each type in a message, each of the eight integer parsers, and ranges in every parsed message"
  },
  {
   "property": "C11",
   "status": "proved",
   "theorems": [
    "Nrbf.C11_bits_preserved",
    "Nrbf.C11_message"
   ],
   "note": "the parsers, and arrays of each type in a message"
  },
  {
   "property": "C12",
   "status": "proved",
   "theorems": [
    "Nrbf.C12_boolean",
    "Nrbf.C12_message",
    "Nrbf.C60_bad_boolean"
   ],
   "note": "the parser, and arrays of booleans in a message"
  },
  {
   "property": "C13",
   "status": "proved",
   "theorems": [
    "Nrbf.C13_latin1",
    "Nrbf.C13_ascii",
    "Nrbf.C13_non_ascii",
    "Nrbf.C13_message"
   ],
   "note": "every byte, every character"
  },
  {
   "property": "C14",
   "status": "proved",
   "theorems": [
    "Nrbf.C14_ticks_kind",
    "Nrbf.C14_determined"
   ],
   "note": ""
  },
  {
   "property": "C15",
   "status": "proved",
   "theorems": [
    "Nrbf.C15_flags_iff",
    "Nrbf.C15_return_category_false",
    "Nrbf.C15_truncated",
    "Nrbf.C15_message"
   ],
   "note": "exact acceptance condition for all words; deviation from MS-NRBF shown by a witness"
  },
  {
   "property": "C16",
   "status": "proved",
   "theorems": [
    "Nrbf.C16_ids",
    "Nrbf.C16_reference",
    "Nrbf.C16_object",
    "Nrbf.C16_metadata",
    "Nrbf.C16_class_library",
    "Nrbf.C16_typed_class_library",
    "Nrbf.C16_element"
   ],
   "note": "the parsers, and the error seen by the caller for every kind of record"
  },
  {
   "property": "C17",
   "status": "proved",
   "theorems": [
    "Nrbf.C17_null_runs",
    "Nrbf.C17_element"
   ],
   "note": "the parser, and the error seen by the caller for elements of arrays"
  },
  {
   "property": "C18",
   "status": "proved",
   "theorems": [
    "Nrbf.C18_primitive_array"
   ],
   "note": "equivalence in every reachable state"
  },
  {
   "property": "C19",
   "status": "proved",
   "theorems": [
    "Nrbf.C19_length",
    "Nrbf.C19_excess",
    "Nrbf.C19_length_false"
   ],
   "note": "at least the declared length, exactly it without null runs; the excess is the rest of the last null run"
  },
  {
   "property": "C20",
   "status": "proved",
   "theorems": [
    "Nrbf.C20_shape",
    "Nrbf.C20_runs",
    "Nrbf.C20_empty",
    "Nrbf.C20_shape_false"
   ],
   "note": "every rank; the empty case deviates from .NET (witness)"
  },
  {
   "property": "C21",
   "status": "proved",
   "theorems": [
    "Nrbf.C21_overflow",
    "Nrbf.C21_count"
   ],
   "note": ""
  },
  {
   "property": "C22",
   "status": "proved",
   "theorems": [
    "Nrbf.C22_record",
    "Nrbf.C22_message",
    "Nrbf.C22_later",
    "Nrbf.C22_negative"
   ],
   "note": "arrays that stand anywhere inside the other records: C71 (every way to write a message)"
  },
  {
   "property": "C23",
   "status": "proved",
   "theorems": [
    "Nrbf.C23_never",
    "Nrbf.C23_error",
    "Nrbf.C23_own_id"
   ],
   "note": "ClassWithId is rejected in every reachable state"
  },
  {
   "property": "C24",
   "status": "proved",
   "theorems": [
    "Nrbf.C24_last_wins",
    "Nrbf.C24_duplicate_accepted",
    "Nrbf.C38_unreachable_errors"
   ],
   "note": ""
  },
  {
   "property": "C25",
   "status": "proved",
   "theorems": [
    "Nrbf.C25_duplicate",
    "Nrbf.C25_missing",
    "Nrbf.C25_missing_member"
   ],
   "note": ""
  },
  {
   "property": "C26",
   "status": "proved",
   "theorems": [
    "Nrbf.C26_class",
    "Nrbf.C26_other"
   ],
   "note": ""
  },
  {
   "property": "C27",
   "status": "proved",
   "theorems": [
    "Nrbf.C27_array",
    "Nrbf.C27_member",
    "Nrbf.C27_references",
    "Nrbf.C27_depth_first",
    "Nrbf.C27_inline_object"
   ],
   "note": ""
  },
  {
   "property": "C28",
   "status": "proved",
   "theorems": [
    "Nrbf.C28_second",
    "Nrbf.C28_shared_false"
   ],
   "note": ""
  },
  {
   "property": "C29",
   "status": "proved",
   "theorems": [
    "Nrbf.C29_trace",
    "Nrbf.C29_left_behind",
    "Nrbf.C29_second_attempt",
    "Nrbf.C29_no_references"
   ],
   "note": "the trace exists (witness), is bounded, and is without effect without references"
  },
  {
   "property": "C30",
   "status": "proved",
   "theorems": [
    "Nrbf.C30_primitive_members",
    "Nrbf.C30_misread",
    "Nrbf.C30_rejected"
   ],
   "note": "holds when no encoding starts with the byte 12; witnesses of misreading and rejection otherwise"
  },
  {
   "property": "C31",
   "status": "proved",
   "theorems": [
    "Nrbf.C31_complete",
    "Nrbf.C31_content_unique"
   ],
   "note": ""
  },
  {
   "property": "C32",
   "status": "proved",
   "theorems": [
    "Nrbf.C32_record_iff",
    "Nrbf.C32_message_sound"
   ],
   "note": "records: equivalence for every reachable state; messages: grammar or second attempt (C29)"
  },
  {
   "property": "C33",
   "status": "proved",
   "theorems": [
    "Nrbf.C33_method_call"
   ],
   "note": ""
  },
  {
   "property": "C34",
   "status": "proved",
   "theorems": [
    "Nrbf.C34_method_return"
   ],
   "note": ""
  },
  {
   "property": "C35",
   "status": "proved",
   "theorems": [
    "Nrbf.C35_arguments",
    "Nrbf.C35_invalid_args"
   ],
   "note": ""
  },
  {
   "property": "C36",
   "status": "proved",
   "theorems": [
    "Nrbf.C36_call_array_id"
   ],
   "note": ""
  },
  {
   "property": "C37",
   "status": "proved",
   "theorems": [
    "Nrbf.C37_null_root",
    "Nrbf.C37_root",
    "Nrbf.C37_missing_root"
   ],
   "note": ""
  },
  {
   "property": "C38",
   "status": "proved",
   "theorems": [
    "Nrbf.C38_unreachable_errors"
   ],
   "note": ""
  },
  {
   "property": "C39",
   "status": "proved",
   "theorems": [
    "Nrbf.C39_names_distinct",
    "Nrbf.C39_members",
    "Nrbf.C39_aligned",
    "Nrbf.C39_positions"
   ],
   "note": ""
  },
  {
   "property": "C40",
   "status": "proved",
   "theorems": [
    "Nrbf.C40_vec",
    "Nrbf.C40_tuple",
    "Nrbf.C40_prefix",
    "Nrbf.C40_bounds",
    "Nrbf.C40_off_by_one"
   ],
   "note": "exact characterisation; the bound is off by one in the code (witness)"
  },
  {
   "property": "C41",
   "status": "proved",
   "theorems": [
    "Nrbf.C41",
    "Nrbf.C41_boxed",
    "Nrbf.C41_malformed"
   ],
   "note": ""
  },
  {
   "property": "C42",
   "status": "proved",
   "theorems": [
    "Nrbf.C42",
    "Nrbf.C42_none",
    "Nrbf.C42_some",
    "Nrbf.C42_root"
   ],
   "note": ""
  },
  {
   "property": "C43",
   "status": "proved",
   "theorems": [
    "Nrbf.C43_malformed",
    "Nrbf.C43_call",
    "Nrbf.C43_return",
    "Nrbf.C43_value"
   ],
   "note": ""
  },
  {
   "property": "C44",
   "status": "proved",
   "theorems": [
    "Nrbf.C44_vec",
    "Nrbf.C44_tuple",
    "Nrbf.C44_element_error"
   ],
   "note": ""
  },
  {
   "property": "C45",
   "status": "proved",
   "theorems": [
    "Nrbf.C45_trailing",
    "Nrbf.not_completesLibrary",
    "Nrbf.C45_exception"
   ],
   "note": "every message of the grammar; the exception is shown to occur"
  },
  {
   "property": "C46",
   "status": "proved",
   "theorems": [
    "Nrbf.C46_depth",
    "Nrbf.C46_depth_message",
    "Nrbf.C46_recursion",
    "Nrbf.C46_unbounded"
   ],
   "note": ""
  },
  {
   "property": "C47",
   "status": "proved",
   "theorems": [
    "Nrbf.C47_contents",
    "Nrbf.C47_contents_message",
    "Nrbf.C47_nulls",
    "Nrbf.C47_all",
    "Nrbf.C47_all_message"
   ],
   "note": ""
  },
  {
   "property": "C48",
   "status": "proved",
   "theorems": [
    "Nrbf.C48",
    "Nrbf.C48_eq",
    "Nrbf.C48_struct"
   ],
   "note": ""
  },
  {
   "property": "C49",
   "status": "proved",
   "theorems": [
    "Nrbf.C49_string",
    "Nrbf.C49_primitive_array",
    "Nrbf.C49_null"
   ],
   "note": ""
  },
  {
   "property": "C50",
   "status": "proved",
   "theorems": [
    "Nrbf.C50_member_class",
    "Nrbf.C50_positions",
    "Nrbf.C50_unexpected"
   ],
   "note": ""
  },
  {
   "property": "C51",
   "status": "proved",
   "theorems": [
    "Nrbf.C51",
    "Nrbf.C51_fromSlice"
   ],
   "note": ""
  },
  {
   "property": "C52",
   "status": "proved",
   "theorems": [
    "Nrbf.C52"
   ],
   "note": ""
  },
  {
   "property": "C53",
   "status": "proved",
   "theorems": [
    "Nrbf.C53",
    "Nrbf.C53_missing",
    "Nrbf.C53_ignored_error"
   ],
   "note": ""
  },
  {
   "property": "C54",
   "status": "proved",
   "theorems": [
    "Nrbf.C54_bool",
    "Nrbf.C54_int",
    "Nrbf.C54_str",
    "Nrbf.C54_string",
    "Nrbf.C54_unit",
    "Nrbf.C54_f64",
    "Nrbf.C54_f32",
    "Nrbf.C54_char",
    "Nrbf.C54_object",
    "Nrbf.C54_enum"
   ],
   "note": ""
  },
  {
   "property": "C55",
   "status": "proved",
   "theorems": [
    "Nrbf.C55",
    "Nrbf.C55_str",
    "Nrbf.C55_ints",
    "Nrbf.C55_null"
   ],
   "note": ""
  },
  {
   "property": "C56",
   "status": "proved",
   "theorems": [
    "Nrbf.C56_text",
    "Nrbf.C56_nonempty"
   ],
   "note": ""
  },
  {
   "property": "C57",
   "status": "proved",
   "theorems": [
    "Nrbf.C57_write",
    "Nrbf.C57_accepted",
    "Nrbf.C57_again"
   ],
   "note": "sizes must fit the format (below 2^31) and decimals must print to a text that is read back"
  },
  {
   "property": "C58",
   "status": "proved",
   "theorems": [
    "Nrbf.C58",
    "Nrbf.C58_unique",
    "Nrbf.C58_from_slice",
    "Nrbf.C58_root"
   ],
   "note": "values as the parser produces them; in a 32-bit build with lists below 2^30 items, which every Rust Vec of values satisfies there since a value takes more than 4 bytes (in a 64-bit build no list is too long, see C81)"
  },
  {
   "property": "C59",
   "status": "proved",
   "theorems": [
    "Nrbf.C59",
    "Nrbf.C59_value"
   ],
   "note": "integers of at most 64 bits, Latin-1 characters, Some(x) only if x is not stored as null; sizes below 2^31"
  },
  {
   "property": "C60",
   "status": "proved",
   "theorems": [
    "Nrbf.C60_accepted",
    "Nrbf.C60_rejected",
    "Nrbf.C60_neither",
    "Nrbf.C60_determined",
    "Nrbf.C60_first_bad",
    "Nrbf.C60_mismatch",
    "Nrbf.C60_unknown_record",
    "Nrbf.C60_bad_decimal",
    "Nrbf.C60_bad_boolean",
    "Nrbf.C60_truncated",
    "Nrbf.C60_element_type",
    "Nrbf.C60_swallowed"
   ],
   "note": "if and only if, for every input; the other theorems are consequences and a witness"
  },
  {
   "property": "C61",
   "status": "proved",
   "theorems": [
    "Nrbf.C61_panics",
    "Nrbf.C61_complete",
    "Nrbf.C61_exclusive",
    "Nrbf.C61_from_slice",
    "Nrbf.C61_nested"
   ],
   "note": "if and only if, for every input; C61_nested is a witness below the top level"
  },
  {
   "property": "C62",
   "status": "proved",
   "theorems": [
    "Nrbf.C62_attempts",
    "Nrbf.C62_work",
    "Nrbf.C62_quadratic",
    "Nrbf.C62_reads",
    "Nrbf.C62_same"
   ],
   "note": "The counting parser (Model/Work.lean) gives the same results as the model of the parser (C62_same) and counts at least every byte of an accepted message (C62_reads). Building values is not counted."
  },
  {
   "property": "C63",
   "status": "proved",
   "theorems": [
    "Nrbf.C63_same",
    "Nrbf.C63_up",
    "Nrbf.C63_down",
    "Nrbf.C63_accept",
    "Nrbf.C63_differ",
    "Nrbf.C63_from_slice"
   ],
   "note": "up/down are about messages in the sense of C31; from_slice for proper types and lists below 2^30 items"
  },
  {
   "property": "C64",
   "status": "proved",
   "theorems": [
    "Nrbf.C64",
    "Nrbf.C64_total",
    "Nrbf.C64_kinds",
    "Nrbf.C64_erase",
    "Nrbf.C64_malformed",
    "Nrbf.C64_call",
    "Nrbf.C64_return",
    "Nrbf.C64_from_slice",
    "Nrbf.C64_root_option",
    "Nrbf.C64_root_option_total",
    "Nrbf.C64_array_length",
    "Nrbf.C64_missing"
   ],
   "note": "if and only if, for values as the parser produces them; structs with distinct fields; {:?} of a str and the printing of floats are parameters"
  },
  {
   "property": "C65",
   "status": "proved",
   "theorems": [
    "Nrbf.C65_equal",
    "Nrbf.C65_reflexive",
    "Nrbf.C65_symmetric",
    "Nrbf.C65_transitive",
    "Nrbf.C65_order",
    "Nrbf.C65_identify",
    "Nrbf.C65_message",
    "Nrbf.C65_parsed",
    "Nrbf.C65_parsed_symmetric",
    "Nrbf.C65_parsed_transitive"
   ],
   "note": "if and only if; the comparison of decimals is a parameter that is an equivalence"
  },
  {
   "property": "C66",
   "status": "proved",
   "theorems": [
    "Nrbf.C66",
    "Nrbf.C66_borrowed"
   ],
   "note": "assumes, like C58, that decimals print as UTF-8 and that, in a 32-bit build only, no generic list has 2^30 items (see C81)"
  },
  {
   "property": "C67",
   "status": "proved",
   "theorems": [
    "Nrbf.C67_truncated",
    "Nrbf.C67_rejected",
    "Nrbf.C67_exception",
    "Nrbf.C67_reinterpreted"
   ],
   "note": "the two exceptions are shown to occur"
  },
  {
   "property": "C68",
   "status": "proved",
   "theorems": [
    "Nrbf.C68_unreferenced",
    "Nrbf.C68_independent",
    "Nrbf.C68_null_root",
    "Nrbf.C68_order"
   ],
   "note": "records with internal references (to records of their own) included"
  },
  {
   "property": "C69",
   "status": "proved",
   "theorems": [
    "Nrbf.C69",
    "Nrbf.C69_unique",
    "Nrbf.C69_least",
    "Nrbf.C69_ignored"
   ],
   "note": "assumes, like C58, that decimals print as UTF-8 and that, in a 32-bit build only, no generic list has 2^30 items (see C81)"
  },
  {
   "property": "C70",
   "status": "proved",
   "theorems": [
    "Nrbf.C70",
    "Nrbf.C70_value",
    "Nrbf.C70_new_field",
    "Nrbf.C70_lost_field"
   ],
   "note": "assumes, like C58, that decimals print as UTF-8 and that, in a 32-bit build only, no generic list has 2^30 items (see C81)"
  },
  {
   "property": "C71",
   "status": "proved",
   "theorems": [
    "Nrbf.C71",
    "Nrbf.C71_unique",
    "Nrbf.C71_from_slice",
    "Nrbf.C71_write"
   ],
   "note": "the encodings excluded are those the crate cannot read: ClassWithId records, shared references, records in front of the referring record inside one object graph; and a bare primitive member that starts with byte 12"
  },
  {
   "property": "C72",
   "status": "proved",
   "theorems": [
    "Nrbf.C72",
    "Nrbf.C72_value",
    "Nrbf.C72_success",
    "Nrbf.C72_decimals"
   ],
   "note": "assumes that casts between f32 and f64 take equal numbers to equal numbers (shown to mean: zeros to zeros), and, like C58, that decimals print as UTF-8 and that, in a 32-bit build only, no generic list has 2^30 items (see C81)"
  },
  {
   "property": "C73",
   "status": "proved",
   "theorems": [
    "Nrbf.C73",
    "Nrbf.C73_value"
   ],
   "note": "As for C58: strings of decimals are valid UTF-8, lists below 2^30 items in a 32-bit build, and an option at the root only if the narrower type is one (C42). The counterexample for a type that has a value for null is beside the theorem."
  },
  {
   "property": "C74",
   "status": "proved",
   "theorems": [
    "Nrbf.Visitors.C74_array",
    "Nrbf.Visitors.C74_list",
    "Nrbf.Visitors.C74_object",
    "Nrbf.Visitors.C74_struct",
    "Nrbf.Visitors.C74_scalar",
    "Nrbf.Visitors.C74_boxed",
    "Nrbf.Visitors.C74_box_broken",
    "Nrbf.Visitors.C74_list_class",
    "Nrbf.Visitors.C74_type",
    "Nrbf.Visitors.C74_from_slice",
    "Nrbf.Visitors.C74_malformed",
    "Nrbf.Visitors.C74_option",
    "Nrbf.Visitors.C74_method",
    "Nrbf.Visitors.C74_method_message",
    "Nrbf.Visitors.C74_root"
   ],
   "note": "Visitors are arbitrary strategies (Model/Visitor.lean). Asking a map for a value without a key is a panic in serde and outside the model; next_entry is next_key followed by next_value."
  },
  {
   "property": "C75",
   "status": "proved",
   "theorems": [
    "Nrbf.Visitors.C75_total",
    "Nrbf.Visitors.C75_unique"
   ],
   "note": "Generalises C51 from the universe of standard and derived types to all types."
  },
  {
   "property": "C76",
   "status": "proved",
   "theorems": [
    "Nrbf.Visitors.C76",
    "Nrbf.Visitors.C76_boxed",
    "Nrbf.Visitors.C76_message",
    "Nrbf.Visitors.C76_from_slice",
    "Nrbf.Visitors.C76_orderly"
   ],
   "note": "Two independently written models of the serde layer - the direct one (decodeR) and the request-by-request one (Visitor) - agree."
  },
  {
   "property": "C77",
   "status": "proved",
   "theorems": [
    "Nrbf.Visitors.C77",
    "Nrbf.Visitors.C77_ends",
    "Nrbf.Visitors.C77_told",
    "Nrbf.Visitors.C77_invariant",
    "Nrbf.Visitors.C77_after",
    "Nrbf.Visitors.C77_convert"
   ],
   "note": "Errors correspond by any reflexive relation between texts, for example equality, or any two errors."
  },
  {
   "property": "C78",
   "status": "proved",
   "theorems": [
    "Nrbf.C78_int",
    "Nrbf.C78_int_exact",
    "Nrbf.C78_order",
    "Nrbf.C78_single",
    "Nrbf.C78_double",
    "Nrbf.C78_double_exact",
    "Nrbf.C78_casts",
    "Nrbf.C78_equal",
    "Nrbf.C78_from_slice"
   ],
   "note": "The conversions are Rust's `as`, called by serde's implementations for f32 and f64 on what the crate's deserializer hands over; Model/Floats.lean computes them on bit patterns, Spec/Rounding.lean says what nearest means, and which NaN a NaN becomes is left open."
  },
  {
   "property": "C79",
   "status": "proved",
   "theorems": [
    "Nrbf.C79",
    "Nrbf.C79_again",
    "Nrbf.C79_reads",
    "Nrbf.C79_prints",
    "Nrbf.C79_reads_back",
    "Nrbf.C79_utf8"
   ],
   "note": "rust_decimal's source is not available: it is a parameter of every theorem. The exact library (Model/Decimals.lean) is a stand-in that shows the demands can be met; it refuses texts that rust_decimal would round."
  },
  {
   "property": "C80",
   "status": "proved",
   "theorems": [
    "Nrbf.Visitors.C80",
    "Nrbf.Visitors.C80_same",
    "Nrbf.Visitors.C80_different",
    "Nrbf.Visitors.C80_names",
    "Nrbf.Visitors.C80_standard"
   ],
   "note": "The order of members is that of the HashMap iteration (C48 is about the order). Objects of the classes of boxed primitives that do not hold one are refused with a text that may not tell their classes apart; that is why C80_different asks for proper boxes (C80_same does not)."
  },
  {
   "property": "C81",
   "status": "proved",
   "theorems": [
    "Nrbf.C81",
    "Nrbf.C81_args",
    "Nrbf.C81_reached",
    "Nrbf.C81_exact"
   ],
   "note": "Used to drop the size assumption of the serde theorems (C58, C64, C66, C69, C70, C72, C73) in 64-bit builds."
  },
  {
   "property": "C82",
   "status": "proved",
   "theorems": [
    "Nrbf.C82_text",
    "Nrbf.C82_text_message",
    "Nrbf.C82_libraries",
    "Nrbf.C82_libraries_square",
    "Nrbf.C82_from_slice",
    "Nrbf.C82_from_slice_message",
    "Nrbf.C82_decimals"
   ],
   "note": "Text of values: Spec/Text.lean. C82_from_slice assumes of the decimal library that it prints UTF-8 and at most one character more than it reads; C82_decimals shows this for the stand-in of C79."
  },
  {
   "property": "C83",
   "status": "proved",
   "theorems": [
    "Nrbf.Visitors.C83_log",
    "Nrbf.Visitors.C83_visits",
    "Nrbf.Visitors.C83_nothing",
    "Nrbf.Visitors.C83_requests",
    "Nrbf.Visitors.C83_everything",
    "Nrbf.Visitors.C83_handed",
    "Nrbf.Visitors.Handed.sublist",
    "Nrbf.Visitors.rust_thorough",
    "Nrbf.Visitors.C83_rust"
   ],
   "note": "The relations of the visitor model are repeated with a log (Spec/Calls.lean) and proved to be the same relations (C83_log). visit_some is not counted as handing out: the value is handed out again to the inner type."
  },
  {
   "property": "C84",
   "status": "proved",
   "theorems": [
    "Nrbf.Visitors.C84_depth",
    "Nrbf.Visitors.C84_return",
    "Nrbf.Visitors.C84_length",
    "Nrbf.Visitors.C84_reached",
    "Nrbf.Visitors.C84_unbounded"
   ],
   "note": "The log of C83 marks when visitors return."
  },
  {
   "property": "C85",
   "status": "proved",
   "theorems": [
    "Nrbf.C85_display",
    "Nrbf.C85_text",
    "Nrbf.C85_from_slice",
    "Nrbf.C85_called",
    "Nrbf.C85_type",
    "Nrbf.C85_amount",
    "Nrbf.C85_range",
    "Nrbf.C85_integers",
    "Nrbf.C85_numeral",
    "Nrbf.C85_identifies"
   ],
   "note": "{:?} of a str and the printing of floats are parameters; the texts of serde are those of version 1.0.197 and later"
  },
  {
   "property": "C86",
   "status": "proved",
   "theorems": [
    "Nrbf.C86",
    "Nrbf.C86_texts"
   ],
   "note": "if and only if, for every input; a witness input for each reason is evaluated by the kernel"
  },
  {
   "property": "C87",
   "status": "proved",
   "theorems": [
    "Nrbf.C87_log",
    "Nrbf.C87_nested",
    "Nrbf.C87_before",
    "Nrbf.C87_shared",
    "Nrbf.C87_acyclic",
    "Nrbf.C87_accepted",
    "Nrbf.C87_rejected"
   ],
   "note": "The log of events (opened, closed, refers) is a further index of the grammar judgements (Spec/Log.lean); C87_log shows that the judgements with and without it are the same. Input that is accepted without being a message (by a second attempt, C29) is not covered."
  },
  {
   "property": "C88",
   "status": "proved",
   "theorems": [
    "Nrbf.Visitors.C88_map",
    "Nrbf.Visitors.C88_propagated",
    "Nrbf.Visitors.C88_requests",
    "Nrbf.Visitors.C88_value",
    "Nrbf.Visitors.C88_never",
    "Nrbf.Visitors.C88_error"
   ],
   "note": "The type is private and unused, so this is about what would happen if it were used. rust_decimal's from_i128_with_scale is external: the model returns its arguments."
  },
  {
   "property": "C89",
   "status": "proved",
   "theorems": [
    "C89",
    "C89_ids",
    "C89_exists",
    "C89_every",
    "C89_left",
    "C89_right",
    "C89_from_slice",
    "C89_exception",
    "C89_written"
   ],
   "note": "Two byte strings are read side by side by the rules of the grammar, once with each set of ids (Spec/Renamed.lean); C89_left and C89_every show that the rules are those of the grammar. The class metadata ids of ClassWithId do not occur, because such records are always rejected (C23)."
  },
  {
   "property": "C90",
   "status": "proved",
   "theorems": [
    "Nrbf.C90",
    "Nrbf.C90_written",
    "Nrbf.C90_grammar",
    "Nrbf.C90_exception",
    "Nrbf.C90_members"
   ],
   "note": "TextsReplaced says that some length-prefixed texts are replaced and nothing else; the witness is constructed by induction on the grammar"
  },
  {
   "property": "C91",
   "status": "proved",
   "theorems": [
    "Nrbf.C91",
    "Nrbf.C91_written",
    "Nrbf.C91_grammar",
    "Nrbf.C91_exception"
   ],
   "note": "NumbersReplaced says that some encodings of primitive values are replaced by encodings of the same type and nothing else"
  },
  {
   "property": "C92",
   "status": "proved",
   "theorems": [
    "C92",
    "C92_written",
    "C92_value",
    "C92_exceptions"
   ],
   "note": "Two-sided relation (TextPairs) between values, types and results that differ in texts, preserved by Decodes (C58); its flip gives failures. Decimals in the message must be printed as texts the translation leaves alone, as they can be read as strings. C92_written goes from bytes to Rust values through C90."
  }
 ]
}