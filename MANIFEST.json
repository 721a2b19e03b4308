{
 "claims": [
  {
   "property": "C01",
   "status": "proved",
   "theorems": [
    "V8.Props.C01_varint_round_trip",
    "V8.Props.C01_varint32_round_trip",
    "V8.Props.C01_varint_negative"
   ],
   "note": ""
  },
  {
   "property": "C02",
   "status": "proved",
   "theorems": [
    "V8.Props.C02_varint_prefix_free",
    "V8.Props.C02_varint_injective",
    "V8.Props.C02_varint_shortest"
   ],
   "note": ""
  },
  {
   "property": "C03",
   "status": "proved",
   "theorems": [
    "V8.Props.C03_zigzag_left_inverse",
    "V8.Props.C03_zigzag_right_inverse",
    "V8.Props.C03_zigzag_code",
    "V8.Props.C03_zigzag_round_trip"
   ],
   "note": ""
  },
  {
   "property": "C04",
   "status": "proved",
   "theorems": [
    "V8.Props.C04_int32_round_trip",
    "V8.Props.C04_uint32_round_trip",
    "V8.Props.C04_read_int32_total",
    "V8.Props.C04_read_uint32_total",
    "V8.Props.C04_at_most_five_bytes"
   ],
   "note": ""
  },
  {
   "property": "C05",
   "status": "proved",
   "theorems": [
    "V8.Props.C05_bigint_round_trip",
    "V8.Props.C05_bigint_limit"
   ],
   "note": ""
  },
  {
   "property": "C06",
   "status": "proved",
   "theorems": [
    "V8.Props.C06_int_round_trip",
    "V8.Props.C06_accepted"
   ],
   "note": "every int that dumps accepts; C06_accepted shows that ints of up to 2^32 bits are accepted"
  },
  {
   "property": "C07",
   "status": "proved",
   "theorems": [
    "V8.Props.C07_double_round_trip"
   ],
   "note": "over 64-bit patterns; struct.pack/unpack are trusted to be the IEEE layout"
  },
  {
   "property": "C08",
   "status": "proved",
   "theorems": [
    "V8.Props.C08_utf8_round_trip",
    "V8.Props.C08_twobyte_round_trip",
    "V8.Props.C08_onebyte_round_trip",
    "V8.Props.C08_utf8_strict",
    "V8.Props.C08_utf16_strict",
    "V8.Props.C08_invalid_rejected"
   ],
   "note": ""
  },
  {
   "property": "C09",
   "status": "proved",
   "theorems": [
    "V8.Props.C09_twobyte_aligned"
   ],
   "note": ""
  },
  {
   "property": "C10",
   "status": "partial",
   "theorems": [
    "V8.Props.C10_loads_needs_header_partial",
    "V8.Props.C10_version_value_error",
    "V8.Props.C10_header_written",
    "V8.Props.C10_header_rejected"
   ],
   "note": "Missing: with a version number of more than 4300 digits the exception is ValueError, not DecodeV8SerializeError (C10_version_value_error). Proved: what dumps writes, that only versions 13 to 15 are read, and the exception for all other data."
  },
  {
   "property": "C11",
   "status": "partial",
   "theorems": [
    "V8.Props.C11_written_message_partial",
    "V8.Props.C11_round_trip_partial",
    "V8.Props.C11_round_trip_any_object_partial",
    "V8.Props.C11_doubles",
    "V8.Props.C11_fails_after_regexp",
    "V8.Props.C11_fails_after_error",
    "V8.Props.C11_error_duplicated",
    "V8.Props.C11_fails_after_shared_buffer"
   ],
   "note": "proved for data of any kinds of objects in which none occurs twice, for data with any sharing and cycles without RegExp, cause-less Error, shared/transferred buffers, and in general whenever no reference is written after the two sides' numbering diverges; false in general (C11_fails_after_regexp, C11_fails_after_error, C11_fails_after_shared_buffer); Encodable lists the remaining conditions"
  },
  {
   "property": "C12",
   "status": "partial",
   "theorems": [
    "V8.Props.C12_numbers",
    "V8.Props.C12_same_numbering_partial",
    "V8.Props.C12_same_numbering_until_skew_partial",
    "V8.Props.C12_numbering_differs"
   ],
   "note": "proved for the objects both sides number alike; false for RegExp, cause-less Error, shared/transferred buffers (C12_numbering_differs); C12_numbers: the writer numbers everything reachable (those excepted), without gaps or repeats"
  },
  {
   "property": "C13",
   "status": "partial",
   "theorems": [
    "V8.Props.C13_linear_size_partial",
    "V8.Props.C13_reference_afterwards",
    "V8.Props.C13_not_linear"
   ],
   "note": "linear bound for every graph (nodes, edges, characters, bytes) counting RegExp and cause-less Error objects at each mention; C13_not_linear is the counterexample for those, which the code does not record"
  },
  {
   "property": "C14",
   "status": "proved",
   "theorems": [
    "V8.Props.C14_terminates",
    "V8.Props.C14_depth_bound"
   ],
   "note": "depth at most the number of objects plus two, for every well-typed heap; Python's own recursion limit is not modelled"
  },
  {
   "property": "C15",
   "status": "partial",
   "theorems": [
    "V8.Props.C15_loads_terminates_partial",
    "V8.Props.C15_value_takes_bytes",
    "V8.Props.C15_position_passes_end",
    "V8.Props.C15_rejected_calls"
   ],
   "note": "all but one clause: in some failing runs the position passes the end before IndexError is raised (C15_position_passes_end)"
  },
  {
   "property": "C16",
   "status": "partial",
   "theorems": [
    "V8.Props.C16_truncation_rejected_partial",
    "V8.Props.C16_view_cut",
    "V8.Props.C16_view_prefix_accepted"
   ],
   "note": "fails for a root that is a view: its prefix is accepted as the bare buffer (C16_view_prefix_accepted); C16_view_cut says that this is the only case"
  },
  {
   "property": "C17",
   "status": "partial",
   "theorems": [
    "V8.Props.C17_exceptions_partial",
    "V8.Props.C17_plain_data_partial",
    "V8.Props.C17_index_error",
    "V8.Props.C17_regexp_value_error",
    "V8.Props.C17_view_error",
    "V8.Props.C17_assertion_error",
    "V8.Props.C17_overflow_error",
    "V8.Props.C17_date_error",
    "V8.Props.C17_flag_value_error"
   ],
   "note": "false in general: witnesses for IndexError, ValueError, JSArrayBufferError, AssertionError, OverflowError and date errors; the theorem lists all exceptions and what the data must contain for each"
  },
  {
   "property": "C18",
   "status": "partial",
   "theorems": [
    "V8.Props.C18_map_count",
    "V8.Props.C18_map_count_rejected_partial",
    "V8.Props.C18_set_count",
    "V8.Props.C18_set_count_rejected_partial",
    "V8.Props.C18_object_count",
    "V8.Props.C18_object_count_rejected_partial",
    "V8.Props.C18_dense_counts",
    "V8.Props.C18_dense_count_rejected_partial",
    "V8.Props.C18_dense_length_rejected_partial",
    "V8.Props.C18_sparse_counts",
    "V8.Props.C18_sparse_count_rejected_partial",
    "V8.Props.C18_sparse_length_rejected_partial",
    "V8.Props.C18_count_value_error"
   ],
   "note": "Missing: a wrong count of more than 4300 digits is ValueError (C18_count_value_error), and an entry that cannot be stored raises before the count is looked at. Proved: accepted collections carry the right counts, and wrong counts are never accepted."
  },
  {
   "property": "C19",
   "status": "partial",
   "theorems": [
    "V8.Props.C19_reader_rejects_other_keys",
    "V8.Props.C19_writer_keys_partial",
    "V8.Props.C19_writer_raises",
    "V8.Props.C19_writer_accepts_constants"
   ],
   "note": "reader and writer for every key value; the writer lets the constants through (C19_writer_accepts_constants), dumps itself only writes number and string keys (C23_output_in_grammar)"
  },
  {
   "property": "C20",
   "status": "partial",
   "theorems": [
    "V8.Props.C20_dedup_partial",
    "V8.Props.C20_cache",
    "V8.Props.C20_zeros_merged",
    "V8.Props.C20_tuples_merged"
   ],
   "note": "the replacement is always ==-equal and of the same type, but not indistinguishable (C20_zeros_merged, C20_tuples_merged)"
  },
  {
   "property": "C21",
   "status": "proved",
   "theorems": [
    "V8.Props.C21_layouts_agree",
    "V8.Props.C21_loads_agree",
    "V8.Props.C21_two_stacks_rejected"
   ],
   "note": "For every name, message, stack text (UTF-8, Latin-1, UTF-16) and cause bytes, in any surroundings and state: same value, objects, numbering, position. A stack in both places is rejected."
  },
  {
   "property": "C22",
   "status": "partial",
   "theorems": [
    "V8.Props.C22_not_in_own_cause",
    "V8.Props.C22_own_cause_raises",
    "V8.Props.C22_raises_only_for_cycles",
    "V8.Props.C22_no_forward_reference_error",
    "V8.Props.C22_feature_allows",
    "V8.Props.C22_feature_only_allows",
    "V8.Props.C22_reference_when_complete",
    "V8.Props.C22_cyclic_cause_comes_back_partial",
    "V8.Props.C22_fails_after_regexp"
   ],
   "note": "proved: no Error mentioned within its own cause, the exception raised (and only for cycles), references after completion, the feature changes nothing else; reading cyclic causes back is proved without the objects that the two sides number differently and false with them (C22_fails_after_regexp)"
  },
  {
   "property": "C23",
   "status": "partial",
   "theorems": [
    "V8.Props.C23_output_in_grammar",
    "V8.Props.C23_float16_refused",
    "V8.Props.C23_v_flag_written",
    "V8.Props.C23_view_flags_written"
   ],
   "note": "resizable buffers and Float16Array for every graph and feature set; fails for the RegExp flag v (C23_v_flag_written) and the flags of views on resizable buffers (C23_view_flags_written)"
  },
  {
   "property": "C24",
   "status": "partial",
   "theorems": [
    "V8.Props.C24_supported_by_exact",
    "V8.Props.C24_monotone",
    "V8.Props.C24_encoder_features",
    "V8.Props.C24_first_v8_version",
    "V8.Props.C24_no_features_raises"
   ],
   "note": "everything but the feature-less encoder, whose first_v8_version raises ValueError (C24_no_features_raises)"
  },
  {
   "property": "C25",
   "status": "partial",
   "theorems": [
    "V8.Props.C25_dense_or_sparse_partial",
    "V8.Props.C25_fails_after_shared_buffer"
   ],
   "note": "for the graphs of C11; root array, both forms; false in general (C25_fails_after_shared_buffer)"
  },
  {
   "property": "C26",
   "status": "partial",
   "theorems": [
    "V8.Props.C26_length_and_holes_partial",
    "V8.Props.C26_fails_after_shared_buffer"
   ],
   "note": "for the graphs of C11; false in general (C26_fails_after_shared_buffer)"
  },
  {
   "property": "C27",
   "status": "partial",
   "theorems": [
    "V8.Props.C27_dense_is_a_list_partial",
    "V8.Props.C27_insert_before_front"
   ],
   "note": "holds except insert at a position before the start, where the code raises IndexError (C27_insert_before_front)"
  },
  {
   "property": "C28",
   "status": "partial",
   "theorems": [
    "V8.Props.C28_sparse_is_a_list_partial",
    "V8.Props.C28_no_assertion",
    "V8.Props.C28_spurious_assertion",
    "V8.Props.C28_append_hole",
    "V8.Props.C28_insert_at_end",
    "V8.Props.C28_elements_view_off_by_one"
   ],
   "note": "holds while the sorted-key cache is valid and outside the operations shown to deviate: spurious AssertionError, append of a hole, insert at the end"
  },
  {
   "property": "C29",
   "status": "partial",
   "theorems": [
    "V8.Props.C29_reads_last_write_partial",
    "V8.Props.C29_switch_invisible_without_removal",
    "V8.Props.C29_spurious_assertion"
   ],
   "note": "reads return the last write; removal in sparse mode can hit the spurious AssertionError (C29_spurious_assertion)"
  },
  {
   "property": "C30",
   "status": "proved",
   "theorems": [
    "V8.Props.C30_index_range",
    "V8.Props.C30_same_name",
    "V8.Props.C30_merged_iff_same_property",
    "V8.Props.C30_idempotent",
    "V8.Props.C30_int_and_text",
    "V8.Props.C30_integral_float",
    "V8.Props.C30_total"
   ],
   "note": "for strings, ints and integral floats; ints of more than 4300 digits raise ValueError (C30_total gives the bound)"
  },
  {
   "property": "C31",
   "status": "proved",
   "theorems": [
    "V8.Props.C31_enumeration_order"
   ],
   "note": ""
  },
  {
   "property": "C32",
   "status": "proved",
   "theorems": [
    "V8.Props.C32_jsmap_is_a_js_map",
    "V8.Props.C32_one_entry_per_class",
    "V8.Props.C32_lookup_is_last_write",
    "V8.Props.C32_get_is_last_write",
    "V8.Props.C32_same_value_zero",
    "V8.Props.C32_huge_int_key"
   ],
   "note": "ints of at least 2^1024-2^970 cannot be keys: OverflowError (C32_huge_int_key); re-inserting an equal key replaces the stored key object in place, as the specification used here says"
  },
  {
   "property": "C33",
   "status": "proved",
   "theorems": [
    "V8.Props.C33_jsset_is_a_js_set",
    "V8.Props.C33_once_each",
    "V8.Props.C33_membership"
   ],
   "note": "same two remarks as C32"
  },
  {
   "property": "C34",
   "status": "partial",
   "theorems": [
    "V8.Props.C34_terminates",
    "V8.Props.C34_no_residue",
    "V8.Props.C34_answers",
    "V8.Props.C34_structural_partial",
    "V8.Props.C34_root_cycles_partial",
    "V8.Props.C34_same_identity",
    "V8.Props.C34_reflexive",
    "V8.Props.C34_cyclic_wrong"
   ],
   "note": "Proved for every heap: comparing ends (nesting bounded by the number of objects), the set of running comparisons is restored also when an exception passes, an object equals itself, and graphs with the same identity structure are equal. The answer is structural equality on graphs without cycles, and True is right when all cycles go through the compared objects. The remaining claim, that True is right on every cyclic graph, is false for this code: C34_cyclic_wrong."
  },
  {
   "property": "C35",
   "status": "proved",
   "theorems": [
    "V8.Props.C35_accepted_iff",
    "V8.Props.C35_history",
    "V8.Props.C35_constructed",
    "V8.Props.C35_fixed"
   ],
   "note": ""
  },
  {
   "property": "C36",
   "status": "proved",
   "theorems": [
    "V8.Props.C36_region_inside",
    "V8.Props.C36_fixed_length",
    "V8.Props.C36_length_tracking",
    "V8.Props.C36_after_resizes",
    "V8.Props.C36_create"
   ],
   "note": ""
  },
  {
   "property": "C37",
   "status": "partial",
   "theorems": [
    "V8.Props.C37_touches_only_target",
    "V8.Props.C37_set_get_int",
    "V8.Props.C37_set_get_float",
    "V8.Props.C37_errors",
    "V8.Props.C37_refused_value_clears_target",
    "V8.Props.C37_through_view"
   ],
   "note": "holds except that a refused value zeroes its target bytes first (C37_refused_value_clears_target); the binary16 and binary32 conversions are parameters here and are covered by C61"
  },
  {
   "property": "C38",
   "status": "proved",
   "theorems": [
    "V8.Props.C38_numbers",
    "V8.Props.C38_view_comes_back",
    "V8.Props.C38_others_unchanged",
    "V8.Props.C38_view_written",
    "V8.Props.C38_message_comes_back",
    "V8.Props.C38_only_decode_errors",
    "V8.Props.C38_unknown_code_rejected",
    "V8.Props.C38_short_data_rejected",
    "V8.Props.C38_partial_item_hidden",
    "V8.Props.C38_shared_view_duplicated",
    "V8.Props.C38_reference_after_host_object_astray"
   ],
   "note": "Every supported view comes back with its kind and bytes; unknown codes and short data are DecodeV8SerializeErrors, and on any data nothing else is raised. C38_partial_item_hidden records that a length that is no multiple of the item size is accepted."
  },
  {
   "property": "C39",
   "status": "proved",
   "theorems": [
    "V8.Props.C39_no_value_rejected",
    "V8.Props.C39_which_error",
    "V8.Props.C39_padding_ignored",
    "V8.Props.C39_padding_before_root",
    "V8.Props.C39_padding_skipped",
    "V8.Props.C39_unknown_byte_rejected"
   ],
   "note": "at every depth and state of the decoder, and between header and root"
  },
  {
   "property": "C40",
   "status": "proved",
   "theorems": [
    "V8.Props.C40_steps_in_order",
    "V8.Props.C40_encode",
    "V8.Props.C40_decode",
    "V8.Props.C40_unhandled_value",
    "V8.Props.C40_unhandled_tag"
   ],
   "note": ""
  },
  {
   "property": "C41",
   "status": "proved",
   "theorems": [
    "V8.Props.C41_type_errors",
    "V8.Props.C41_node_handler"
   ],
   "note": ""
  },
  {
   "property": "C42",
   "status": "partial",
   "theorems": [
    "V8.Props.C42_log_is_a_numbering",
    "V8.Props.C42_ids_in_order",
    "V8.Props.C42_get_back",
    "V8.Props.C42_replace_latest_only",
    "V8.Props.C42_negative_id_accepted",
    "V8.Props.C42_acyclic_blocks"
   ],
   "note": "holds for ids from 0 up; negative ids index from the end (C42_negative_id_accepted)"
  },
  {
   "property": "C43",
   "status": "proved",
   "theorems": [
    "V8.Props.C43_valid",
    "V8.Props.C43_canonical",
    "V8.Props.C43_flags_round_trip"
   ],
   "note": ""
  },
  {
   "property": "C44",
   "status": "partial",
   "theorems": [
    "V8.Props.C44_views_partial",
    "V8.Props.C44_fails_after_regexp"
   ],
   "note": "for the graphs of C11; false in general (C44_fails_after_regexp)"
  },
  {
   "property": "C45",
   "status": "partial",
   "theorems": [
    "V8.Props.C45_trailing_data_partial",
    "V8.Props.C45_view_changes_value"
   ],
   "note": "fails for a bare buffer followed by a view (C45_view_changes_value); holds for everything else"
  },
  {
   "property": "C46",
   "status": "partial",
   "theorems": [
    "V8.Props.C46_injective_partial",
    "V8.Props.C46_zeros_collide"
   ],
   "note": "for the graphs of C11; false for float zeros (C46_zeros_collide)"
  },
  {
   "property": "C47",
   "status": "partial",
   "theorems": [
    "V8.Props.C47_name_round_trip",
    "V8.Props.C47_decoded_name_known",
    "V8.Props.C47_uri_error_not_recognised",
    "V8.Props.C47_decoded_errors_known",
    "V8.Props.C47_names_survive"
   ],
   "note": "everything but JavaScript's own spelling URIError, which is not recognised (C47_uri_error_not_recognised)"
  },
  {
   "property": "C48",
   "status": "proved",
   "theorems": [
    "V8.Props.C48_accepted",
    "V8.Props.C48_same",
    "V8.Props.C48_rejected",
    "V8.Props.C48_no_amplification"
   ],
   "note": "For every byte string, accepted or rejected. For rejected data the state and the unfinished containers at the time of the exception are counted (Model/DecodeFail, shown to agree with the decoder by C48_same)."
  },
  {
   "property": "C49",
   "status": "proved",
   "theorems": [
    "V8.Props.C49_same_form_same_result"
   ],
   "note": "graphs paired by Spec.SameForm; both heaps WellTyped and the same features"
  },
  {
   "property": "C50",
   "status": "partial",
   "theorems": [
    "V8.Props.C50_same_bytes_partial",
    "V8.Props.C50_stable_after_one_pass_partial",
    "V8.Props.C50_not_without"
   ],
   "note": "C50_same_bytes_partial (graphs that were written and read) and C50_stable_after_one_pass_partial (any data). Left out: the objects of C11, objects that compare equal, mixed float zeros, and the forms of Spec.Restorable; C50_not_without shows for each of the latter that the claim is false."
  },
  {
   "property": "C51",
   "status": "proved",
   "theorems": [
    "V8.Props.C51_well_formed"
   ],
   "note": "Python fact assumed: the text of a non-integer float does not read as an array index and has no surrogates."
  },
  {
   "property": "C52",
   "status": "partial",
   "theorems": [
    "V8.Props.C52_encodable",
    "V8.Props.C52_can_be_written",
    "V8.Props.C52_longest_bigint_refused",
    "V8.Props.C52_comes_back_partial"
   ],
   "note": "C52_can_be_written: dumps accepts the result of loads for less than 2^30 - 1 bytes of data (C52_longest_bigint_refused shows why); dates need a time value, Float16Array its feature, cyclic causes theirs. C52_comes_back_partial leaves out the objects that encoder and decoder do not number alike (see C11)."
  },
  {
   "property": "C53",
   "status": "partial",
   "theorems": [
    "V8.Props.C53_accepts",
    "V8.Props.C53_only_writable_partial",
    "V8.Props.C53_accept_set_partial",
    "V8.Props.C53_accept_set_acyclic_partial",
    "V8.Props.C53_equal_view_hides"
   ],
   "note": "The converse (only writable values are accepted) needs that objects which compare equal are alike (TwinsAlike); it fails for equal views on different buffers, C53_equal_view_hides."
  },
  {
   "property": "C54",
   "status": "partial",
   "theorems": [
    "V8.Props.C54_from_python_flags",
    "V8.Props.C54_as_python_flags",
    "V8.Props.C54_python_flags_come_back",
    "V8.Props.C54_js_flags_come_back",
    "V8.Props.C54_text",
    "V8.Props.C54_text_determines_flags",
    "V8.Props.C54_from_pattern_partial",
    "V8.Props.C54_bad_bytes_raise",
    "V8.Props.C54_as_pattern",
    "V8.Props.C54_pattern_through_dumps"
   ],
   "note": "flags: everything; patterns: from_pattern needs text or UTF-8 bytes, since other bytes raise UnicodeDecodeError whatever throw says (C54_bad_bytes_raise); re.compile is a parameter; C54_pattern_through_dumps assumes that no other object compares equal"
  },
  {
   "property": "C55",
   "status": "proved",
   "theorems": [
    "V8.Props.C55_given_tag",
    "V8.Props.C55_default_tag",
    "V8.Props.C55_modelled",
    "V8.Props.C55_payload_reads_back",
    "V8.Props.C55_through_dumps"
   ],
   "note": "the constructor's decision table for every value and tag; the payload reads back; the object passed to dumps comes back as its value"
  },
  {
   "property": "C56",
   "status": "partial",
   "theorems": [
    "V8.Props.C56_union",
    "V8.Props.C56_intersection",
    "V8.Props.C56_difference_partial",
    "V8.Props.C56_reflected_difference",
    "V8.Props.C56_symmetric_difference_partial",
    "V8.Props.C56_isdisjoint",
    "V8.Props.C56_comparisons_partial",
    "V8.Props.C56_intersection_update_partial",
    "V8.Props.C56_difference_update",
    "V8.Props.C56_symmetric_difference_update_partial",
    "V8.Props.C56_too_big",
    "V8.Props.C56_history",
    "V8.Props.C56_and_differs_from_iand",
    "V8.Props.C56_difference_python_set",
    "V8.Props.C56_python_membership",
    "V8.Props.C56_nan_twice"
   ],
   "note": "Proved for JSSets and iterables, and |, other - self, &, -= and isdisjoint for every Python set. -, ^, &= and ^= with a Python set are proved for sets that agree with SameValueZero; for others the claim is false (C56_python_membership, C56_nan_twice), and C56_difference_python_set says what - does. Comparisons are proved between JSSets, with Python sets they are in C80."
  },
  {
   "property": "C57",
   "status": "proved",
   "theorems": [
    "V8.Props.C57_history"
   ],
   "note": "histories of contains, pop, popitem, setdefault mixed with the operations of C32"
  },
  {
   "property": "C58",
   "status": "proved",
   "theorems": [
    "V8.Props.C58_layout",
    "V8.Props.C58_error_chain",
    "V8.Props.C58_cause_of_context_lost",
    "V8.Props.C58_labels_differ",
    "V8.Props.C58_labels_repeat",
    "V8.Props.C58_through_dumps"
   ],
   "note": "The tree recorded by traceback.TracebackException is the input; C58_layout assumes that format_exception_only() says at least one line, which the standard library guarantees."
  },
  {
   "property": "C59",
   "status": "partial",
   "theorems": [
    "V8.Props.C59_history_partial",
    "V8.Props.C59_fresh_after_iteration",
    "V8.Props.C59_pop_raises",
    "V8.Props.C59_clear_leaves_length",
    "V8.Props.C59_object_constructor",
    "V8.Props.C59_array_constructor"
   ],
   "note": "False in full: pop, setdefault, assigning and deleting an element may raise a spurious AssertionError with the right content (C59_pop_raises), and an object keeps the length of its array, which == looks at (C59_clear_leaves_length). Proved: all answers and contents otherwise, and no exception directly after iterating."
  },
  {
   "property": "C60",
   "status": "partial",
   "theorems": [
    "V8.Props.C60_round_trip_partial",
    "V8.Props.C60_written_ms_partial",
    "V8.Props.C60_read_ms_partial",
    "V8.Props.C60_error_bound",
    "V8.Props.C60_read_error_bound",
    "V8.Props.C60_far_date_changes",
    "V8.Props.C60_written_ms_not_whole",
    "V8.Props.C60_read_far_ms",
    "V8.Props.C60_invalid_date_raises",
    "V8.Props.C60_in_graphs_partial",
    "V8.Props.C60_whole_seconds"
   ],
   "note": "Round trip to the microsecond for dates with a time zone from 1901-12-13 to 2038-01-19, also inside graphs; whole milliseconds written exactly from 2004-11 to 2038-01 (and as far before 1970), read exactly up to 2242. Beyond that the statement is false (C60_far_date_changes, C60_written_ms_not_whole, C60_read_far_ms, C60_invalid_date_raises), but every date comes back within 47 microseconds (C60_error_bound) and every number of milliseconds is read within 16 (C60_read_error_bound)."
  },
  {
   "property": "C61",
   "status": "partial",
   "theorems": [
    "V8.Props.C61_get_exact",
    "V8.Props.C61_set_nearest_partial",
    "V8.Props.C61_too_big_raises",
    "V8.Props.C61_overflow_differs",
    "V8.Props.C61_set_get_exact",
    "V8.Props.C61_set_int"
   ],
   "note": "All clauses for numbers below the limit (2^128-2^103 for float32, 65520 for float16), infinity and NaN; above it the setters raise OverflowError (C61_too_big_raises) where JavaScript stores infinity (C61_overflow_differs)."
  },
  {
   "property": "C62",
   "status": "partial",
   "theorems": [
    "V8.Props.C62_map_dict_partial",
    "V8.Props.C62_map_dict_order_partial",
    "V8.Props.C62_map_dict_unhashable",
    "V8.Props.C62_order_matters",
    "V8.Props.C62_map_map",
    "V8.Props.C62_not_transitive",
    "V8.Props.C62_set_set_partial",
    "V8.Props.C62_set_set_unhashable",
    "V8.Props.C62_unhashable_equal",
    "V8.Props.C62_jsset_jsset_partial",
    "V8.Props.C62_set_unlike_list",
    "V8.Props.C62_declines",
    "V8.Props.C62_total"
   ],
   "note": "True for all JSMaps and JSSets with hashable keys and between JSMaps. False in the code (negations proved): with an unhashable key the comparison is in order and can be True; two JSSets of the same NaN differ."
  },
  {
   "property": "C63",
   "status": "partial",
   "theorems": [
    "V8.Props.C63_kinds",
    "V8.Props.C63_get",
    "V8.Props.C63_set_raises",
    "V8.Props.C63_set_int",
    "V8.Props.C63_clamped_not_clamping",
    "V8.Props.C63_set_float64",
    "V8.Props.C63_set_float32",
    "V8.Props.C63_set_float16_partial",
    "V8.Props.C63_set_float_int",
    "V8.Props.C63_eq",
    "V8.Props.C63_inaccessible_equal",
    "V8.Props.C63_equal_not_same_hash",
    "V8.Props.C63_equal_same_hash_partial",
    "V8.Props.C63_backport_read",
    "V8.Props.C63_backport_native_partial",
    "V8.Props.C63_backport_changes_nan",
    "V8.Props.C63_backport_rounds_twice",
    "V8.Props.C63_backport_overflow",
    "V8.Props.C63_backport_loses_edits"
   ],
   "note": "C63_get, C63_set_int, C63_set_float32, C63_set_float64 and C63_eq are complete. Partial: numbers too big for Float16 raise (C63_set_float16_partial); equal views have the same hash only within one integer class (C63_equal_same_hash_partial, false otherwise: C63_equal_not_same_hash); the backport equals the native Float16 array only without NaNs and roundings (C63_backport_native_partial, witnesses C63_backport_*). Integers out of range raise where JavaScript wraps around or clamps (C63_clamped_not_clamping)."
  },
  {
   "property": "C64",
   "status": "partial",
   "theorems": [
    "V8.Props.C64_default",
    "V8.Props.C64_alike",
    "V8.Props.C64_objects",
    "V8.Props.C64_arrays",
    "V8.Props.C64_map_items_partial",
    "V8.Props.C64_constants_merge_keys",
    "V8.Props.C64_wrapped_not_constant",
    "V8.Props.C64_containers_partial",
    "V8.Props.C64_dict_items_partial",
    "V8.Props.C64_dict_merges_keys",
    "V8.Props.C64_dict_unhashable",
    "V8.Props.C64_array_dict_phantom",
    "V8.Props.C64_set_unusable",
    "V8.Props.C64_error_message"
   ],
   "note": "Proved: with the default options, and for every choice of constants and errors that keeps holes (same acceptance, same exceptions, same graph up to the options, properties of objects and arrays one to one). For dict as container: related whenever both return, and only Python exceptions can differ; entries one to one if keys stay apart. False in full (witnesses proved): jsset_type=set rejects every Set, dict and constants can merge keys, unhashable keys, an entry for a hole of sparse arrays."
  },
  {
   "property": "C65",
   "status": "partial",
   "theorems": [
    "V8.Props.C65_nested_restores_partial",
    "V8.Props.C65_restored_iff_nested",
    "V8.Props.C65_never_restored",
    "V8.Props.C65_block_settings",
    "V8.Props.C65_unknown_setting",
    "V8.Props.C65_given_object",
    "V8.Props.C65_overlap_leaks",
    "V8.Props.C65_force_leaks"
   ],
   "note": "Proved for nested blocks with any arguments, and for blocks with keyword arguments it is proved that exactly nested blocks restore the settings. The full claim is false of the code: overlapping blocks leave settings active (C65_overlap_leaks, C65_force_leaks)."
  },
  {
   "property": "C66",
   "status": "partial",
   "theorems": [
    "V8.Props.C66_repr_evaluates_partial",
    "V8.Props.C66_repr_equal_partial",
    "V8.Props.C66_many_properties",
    "V8.Props.C66_keyword_name",
    "V8.Props.C66_error_name",
    "V8.Props.C66_other_values"
   ],
   "note": "Proved for values shown in full (within the limits, no trailing holes in objects and sparse arrays, no reserved words as names, finite floats, plain names of errors): the text evaluates to a copy, and == of the two answers True when there are no cycles. Outside of this the claim is false of the code: C66_error_name, C66_keyword_name, C66_many_properties, C66_other_values."
  },
  {
   "property": "C67",
   "status": "proved",
   "theorems": [
    "V8.Props.C67_registry",
    "V8.Props.C67_copies",
    "V8.Props.C67_dispatch",
    "V8.Props.C67_builtin",
    "V8.Props.C67_other_tags",
    "V8.Props.C67_extension",
    "V8.Props.C67_steps",
    "V8.Props.C67_pass"
   ],
   "note": "registries as mutable objects; readers and steps are arbitrary functions over the decoder state of the model; nesting depth is a parameter as own readers need not consume data"
  },
  {
   "property": "C68",
   "status": "partial",
   "theorems": [
    "V8.Props.C68_in_bounds",
    "V8.Props.C68_max",
    "V8.Props.C68_resize",
    "V8.Props.C68_isolated",
    "V8.Props.C68_shared_partial",
    "V8.Props.C68_shared_view_partial",
    "V8.Props.C68_items",
    "V8.Props.C68_constant",
    "V8.Props.C68_readonly",
    "V8.Props.C68_readonly_shared",
    "V8.Props.C68_write",
    "V8.Props.C68_close",
    "V8.Props.C68_close_plain",
    "V8.Props.C68_view"
   ],
   "note": "Without copying, \"shows the bytes of the source\" is proved for sources with items of one byte (C68_shared_partial, C68_shared_view_partial); for longer items it is false (C68_items: only as many bytes as items). Read-only buffers are constant if copied or made of bytes (C68_constant), not if they share a bytearray (C68_readonly_shared). Memoryviews are one-dimensional and contiguous."
  },
  {
   "property": "C69",
   "status": "partial",
   "theorems": [
    "V8.Props.C69_dense_partial",
    "V8.Props.C69_sparse_partial",
    "V8.Props.C69_reverse_loses",
    "V8.Props.C69_extend_self_holes",
    "V8.Props.C69_clear"
   ],
   "note": "Dense: any history with any comparison agrees with a list, except insert before the front (C27). Sparse: any history except what C28 leaves out, reverse of an array with one or two values (C69_reverse_loses: AssertionError, a value is lost) and extending with holes (C69_extend_self_holes). Comparisons that raise or change the array are not modelled."
  },
  {
   "property": "C70",
   "status": "partial",
   "theorems": [
    "V8.Props.C70_exact",
    "V8.Props.C70_sound",
    "V8.Props.C70_specific_partial",
    "V8.Props.C70_subclass",
    "V8.Props.C70_total",
    "V8.Props.C70_jserror",
    "V8.Props.C70_ambiguous",
    "V8.Props.C70_passed_over"
   ],
   "note": "A method is not always found (C70_ambiguous), and a virtual subclass of a virtual superclass can be passed over (C70_passed_over). C70_specific_partial has every case in which the more specific class inherits from the chosen one, or the class of the value from the more specific one."
  },
  {
   "property": "C71",
   "status": "partial",
   "theorems": [
    "V8.Props.C71_same_partial",
    "V8.Props.C71_capital_refused",
    "V8.Props.C71_space_refused",
    "V8.Props.C71_capital_other",
    "V8.Props.C71_release",
    "V8.Props.C71_suffix",
    "V8.Props.C71_suffix_features",
    "V8.Props.C71_split",
    "V8.Props.C71_invalid_partial",
    "V8.Props.C71_assertion",
    "V8.Props.C71_order",
    "V8.Props.C71_monotone",
    "V8.Props.C71_local",
    "V8.Props.C71_features_exact",
    "V8.Props.C71_prerelease",
    "V8.Props.C71_prerelease_refused",
    "V8.Props.C71_release_cycle"
   ],
   "note": "Texts without capitals and white space are the same for both parsers (C71_same_partial); with them they are not (C71_capital_refused, C71_space_refused, C71_capital_other: negation witnesses). Errors are InvalidVersion or ValueError without a plus sign (C71_invalid_partial); with one an AssertionError is possible (C71_assertion). The rest is proved in full."
  },
  {
   "property": "C72",
   "status": "proved",
   "theorems": [
    "V8.Props.C72_isolated",
    "V8.Props.C72_finishes",
    "V8.Props.C72_clean"
   ],
   "note": ""
  },
  {
   "property": "C73",
   "status": "partial",
   "theorems": [
    "V8.Props.C73_equal",
    "V8.Props.C73_symmetric",
    "V8.Props.C73_transitive_partial",
    "V8.Props.C73_not_transitive",
    "V8.Props.C73_classes_not_transitive",
    "V8.Props.C73_raised",
    "V8.Props.C73_copy_partial",
    "V8.Props.C73_copy_data",
    "V8.Props.C73_copy_none",
    "V8.Props.C73_message",
    "V8.Props.C73_order_partial",
    "V8.Props.C73_order_type_error",
    "V8.Props.C73_str",
    "V8.Props.C73_str_private"
   ],
   "note": "Transitive only between compatible errors (C73_transitive_partial); copies equal the original only if it has a message and was not raised (C73_copy_partial); ordered only with messages and stacks (C73_order_partial); str() shows a private attribute (C73_str_private). Negation witnesses for each. The rest is proved in full."
  },
  {
   "property": "C74",
   "status": "partial",
   "theorems": [
    "V8.Props.C74_transparent",
    "V8.Props.C74_transparent_only",
    "V8.Props.C74_resolve",
    "V8.Props.C74_every_class",
    "V8.Props.C74_view_formats_partial",
    "V8.Props.C74_view_poisoned",
    "V8.Props.C74_node_formats_partial",
    "V8.Props.C74_node_poisoned",
    "V8.Props.C74_error_names_partial",
    "V8.Props.C74_error_poisoned",
    "V8.Props.C74_supported_by"
   ],
   "note": "Proved for all sequences of calls whose arguments are tags, formats, exact ints and objects that are no numbers; for supported_by for all arguments. False for floats and members of other IntEnums (witnesses C74_*_poisoned)."
  },
  {
   "property": "C75",
   "status": "partial",
   "theorems": [
    "V8.Props.C75_integers",
    "V8.Props.C75_safe_partial",
    "V8.Props.C75_fractions",
    "V8.Props.C75_not_numbers",
    "V8.Props.C75_nearest",
    "V8.Props.C75_digits_exist",
    "V8.Props.C75_reads_back",
    "V8.Props.C75_distinct",
    "V8.Props.C75_small_differs",
    "V8.Props.C75_big_differs",
    "V8.Props.C75_unsafe_differs"
   ],
   "note": "Which numbers get the name JavaScript gives them is proved exactly; the full claim is false of the code: small fractions, unsafe integers, NaN and infinities get other names."
  },
  {
   "property": "C76",
   "status": "partial",
   "theorems": [
    "V8.Props.C76_same",
    "V8.Props.C76_in_data",
    "V8.Props.C76_unhandled_tag",
    "V8.Props.C76_not_earlier_partial",
    "V8.Props.C76_not_before_value",
    "V8.Props.C76_varint_moves",
    "V8.Props.C76_truncated_varint",
    "V8.Props.C76_tag_positions",
    "V8.Props.C76_text_positions"
   ],
   "note": "Positions are in the data, unhandled tags are just before them, and earlier bytes are not to blame up to 3 bytes. The exact statement is false of the code: varints are reported at their last or first byte (C76_varint_moves)."
  },
  {
   "property": "C77",
   "status": "partial",
   "theorems": [
    "V8.Props.C77_reads_clock",
    "V8.Props.C77_writes_clock_partial",
    "V8.Props.C77_comes_back_partial",
    "V8.Props.C77_same_instant_partial",
    "V8.Props.C77_skipped_partial",
    "V8.Props.C77_whole_seconds",
    "V8.Props.C77_skipped_changes",
    "V8.Props.C77_equal_for_an_hour",
    "V8.Props.C77_first_day_raises",
    "V8.Props.C77_far_date_changes",
    "V8.Props.C77_in_graphs_partial"
   ],
   "note": "Proved for every regular clock and datetimes of 1902 to 2037 to the microsecond, and for whole seconds of all years; C77_reads_clock has no limit of years but needs local times three days inside the years 1 to 9999. The full statement is false: times that the clock skips (C77_skipped_changes; what happens to them is C77_skipped_partial), the first day of the year 1 (C77_first_day_raises), microseconds far from 1970 (C77_far_date_changes)."
  },
  {
   "property": "C78",
   "status": "proved",
   "theorems": [
    "V8.Props.C78_reads_exactly",
    "V8.Props.C78_rejects_exactly",
    "V8.Props.C78_one_meaning"
   ],
   "note": "loads returns a value with certain objects, contents and numbers if and only if the grammar of Spec/Language derives them; rejected if and only if there is no derivation; derivations are unambiguous."
  },
  {
   "property": "C79",
   "status": "proved",
   "theorems": [
    "V8.Props.C79_loads_same_or_raises",
    "V8.Props.C79_loads_what_fits",
    "V8.Props.C79_loads_depth",
    "V8.Props.C79_loads_enough_room",
    "V8.Props.C79_loads_too_deep",
    "V8.Props.C79_dumps_same_or_raises",
    "V8.Props.C79_dumps_enough_room",
    "V8.Props.C79_dumps_too_deep"
   ],
   "note": "Any number of frames per kind of value; frames of calls that return before the next nested call are not counted."
  },
  {
   "property": "C80",
   "status": "partial",
   "theorems": [
    "V8.Props.C80_iteration",
    "V8.Props.C80_key_in",
    "V8.Props.C80_item_in",
    "V8.Props.C80_too_big",
    "V8.Props.C80_value_in",
    "V8.Props.C80_compare_keys",
    "V8.Props.C80_compare_items",
    "V8.Props.C80_and_partial",
    "V8.Props.C80_or_partial",
    "V8.Props.C80_sub_partial",
    "V8.Props.C80_sub_iterable_partial",
    "V8.Props.C80_rsub",
    "V8.Props.C80_and_set",
    "V8.Props.C80_xor_partial",
    "V8.Props.C80_unhashable",
    "V8.Props.C80_jsset_set_partial",
    "V8.Props.C80_keys_merged",
    "V8.Props.C80_key_lost",
    "V8.Props.C80_equal_not_superset",
    "V8.Props.C80_compare_unhashable"
   ],
   "note": "Going through the views, membership, comparisons of keys and of items, and the operators with a Python set on one side are proved as claimed. The operators make Python sets, which merge equal keys and cannot hold unhashable ones, and use two notions of equality: counterexamples are proved, and the operators are characterised for hashable keys."
  },
  {
   "property": "C81",
   "status": "proved",
   "theorems": [
    "V8.Props.C81_in_place",
    "V8.Props.C81_nested",
    "V8.Props.C81_others_untouched"
   ],
   "note": "C81_in_place: the decoder that stores each entry in the container in the heap (Model/InPlace) is equal, as a function of data and environment, to Model/Decode, which all other theorems about loads are about; C81_nested: the same from any state; C81_others_untouched: decoding a value changes no object that exists."
  },
  {
   "property": "C82",
   "status": "partial",
   "theorems": [
    "V8.Props.C82_iteration",
    "V8.Props.C82_key_in",
    "V8.Props.C82_item_in",
    "V8.Props.C82_value_in",
    "V8.Props.C82_compare_keys",
    "V8.Props.C82_operators",
    "V8.Props.C82_compare_items",
    "V8.Props.C82_compare_set_partial",
    "V8.Props.C82_operators_set_partial",
    "V8.Props.C82_and_any_spelling",
    "V8.Props.C82_no_key",
    "V8.Props.C82_spelling"
   ],
   "note": "All of it is proved for the views by themselves and for two objects. With a Python set on the other side the operators and comparisons are proved for keys in normal form; for other spellings (C82_spelling) and for values that are no keys (C82_no_key) the claim is false of the code."
  },
  {
   "property": "C83",
   "status": "partial",
   "theorems": [
    "V8.Props.C83_call",
    "V8.Props.C83_fields_partial",
    "V8.Props.C83_no_message",
    "V8.Props.C83_forward_message",
    "V8.Props.C83_assign",
    "V8.Props.C83_equal",
    "V8.Props.C83_copy_partial",
    "V8.Props.C83_copy_fails",
    "V8.Props.C83_args_partial",
    "V8.Props.C83_js_error_args",
    "V8.Props.C83_base",
    "V8.Props.C83_buffer_base",
    "V8.Props.C83_hash"
   ],
   "note": "Proved: which calls succeed, what is stored, assignment, equality, copies of six classes. False of the code, with proofs: copies of the other classes (TypeError), hashing, the base class of two (and of one buffer error), the message in args of JSError, the message attribute of ForwardReferenceError."
  },
  {
   "property": "C84",
   "status": "partial",
   "theorems": [
    "V8.Props.C84_shallow_partial",
    "V8.Props.C84_shallow_shares",
    "V8.Props.C84_assign",
    "V8.Props.C84_object_shallow_partial",
    "V8.Props.C84_object_shares",
    "V8.Props.C84_object_assign",
    "V8.Props.C84_deep_items",
    "V8.Props.C84_deep_raises",
    "V8.Props.C84_deep_original_keys",
    "V8.Props.C84_deep_lookup_partial",
    "V8.Props.C84_deep_lost",
    "V8.Props.C84_deep_set",
    "V8.Props.C84_deep_set_lost",
    "V8.Props.C84_pickle",
    "V8.Props.C84_object_deep_fails"
   ],
   "note": "Proved: contents and order of copies, lookups with keys that are no objects, when a deep copy raises. False of the code, with proofs: shallow copies share their content, deep copies lose keys that are objects (and NaN after pickle), JSObject and JSArray cannot be deep-copied."
  },
  {
   "property": "C85",
   "status": "partial",
   "theorems": [
    "V8.Props.C85_bytes",
    "V8.Props.C85_bytes_cut",
    "V8.Props.C85_bytearray",
    "V8.Props.C85_memoryview_partial",
    "V8.Props.C85_buffer_partial",
    "V8.Props.C85_buffer_bytes",
    "V8.Props.C85_buffer_cut",
    "V8.Props.C85_made_partial",
    "V8.Props.C85_resizable_lost",
    "V8.Props.C85_format_raises",
    "V8.Props.C85_step_raises",
    "V8.Props.C85_released",
    "V8.Props.C85_view_partial",
    "V8.Props.C85_view_readonly",
    "V8.Props.C85_view_name"
   ],
   "note": "The text of bytes and bytearrays is proved to be right for all contents and settings, and never valid if it is truncated. For buffers and views the exact condition under which the text is right is proved as an iff (C85_buffer_partial, C85_view_partial). The full statement is false of the code: resizable buffers at their maximum, buffers around memoryviews of larger items or with steps, read-only views and JSFloat16Array before Python 3.12 (witnesses in C85_resizable_lost, C85_format_raises, C85_step_raises, C85_view_readonly, C85_view_name)."
  },
  {
   "property": "C86",
   "status": "proved",
   "theorems": [
    "V8.Props.C86_equal",
    "V8.Props.C86_equal_regexp",
    "V8.Props.C86_equivalence",
    "V8.Props.C86_equal_nan",
    "V8.Props.C86_hash",
    "V8.Props.C86_order_numbers",
    "V8.Props.C86_order_strings",
    "V8.Props.C86_order_mixed",
    "V8.Props.C86_order_nan",
    "V8.Props.C86_order_regexp",
    "V8.Props.C86_classes",
    "V8.Props.C86_same_bytes",
    "V8.Props.C86_frozen",
    "V8.Props.C86_frozen_other",
    "V8.Props.C86_once",
    "V8.Props.C86_init_again"
   ],
   "note": "Frozen dataclasses compared through keys in linear orders; NaN, text against number and subclasses are separate theorems. C86_init_again shows that a second __init__ of JSPrimitiveObject is not stopped, which the claim does not cover."
  },
  {
   "property": "C87",
   "status": "partial",
   "theorems": [
    "V8.Props.C87_update",
    "V8.Props.C87_new_partial",
    "V8.Props.C87_init",
    "V8.Props.C87_self",
    "V8.Props.C87_set"
   ],
   "note": "The keywords init and self of JSMap are taken for parameters (C87_init, C87_self); with any other keywords the claim holds (C87_new_partial). update and JSSet are proved in full."
  },
  {
   "property": "C88",
   "status": "partial",
   "theorems": [
    "V8.Props.C88_reaches",
    "V8.Props.C88_present_partial",
    "V8.Props.C88_once_partial",
    "V8.Props.C88_sparse_stale",
    "V8.Props.C88_sparse_twice",
    "V8.Props.C88_switch_stale",
    "V8.Props.C88_names_error",
    "V8.Props.C88_tidy"
   ],
   "note": "C88_reaches: everything that stays comes, for all objects and loop bodies. C88_tidy: a body that overwrites and deletes what has come sees the keys of the start. C88_present_partial and C88_once_partial are restricted to dense arrays: the claims are false of sparse ones (C88_sparse_stale, C88_sparse_twice) and after an array becomes sparse (C88_switch_stale). C88_names_error: the RuntimeError for names."
  },
  {
   "property": "C89",
   "status": "partial",
   "theorems": [
    "V8.Props.C89_threads",
    "V8.Props.C89_restored",
    "V8.Props.C89_finishes",
    "V8.Props.C89_ends",
    "V8.Props.C89_shows_partial",
    "V8.Props.C89_subclass",
    "V8.Props.C89_subclass_hidden"
   ],
   "note": "Threads, restoring of the set and termination are proved for all structures and schedules. The text shows class and parts for objects without subclasses (C89_shows_partial); for subclasses the code gives only the fill value (C89_subclass, disagreement 92)."
  },
  {
   "property": "C90",
   "status": "partial",
   "theorems": [
    "V8.Props.C90_str_partial",
    "V8.Props.C90_js_error",
    "V8.Props.C90_key_error",
    "V8.Props.C90_forward",
    "V8.Props.C90_repr"
   ],
   "note": "repr() is proved for all classes with the dataclass repr (C90_repr). str() is proved except for JSError, which shows a private field (C90_js_error), and NormalizedKeyError, whose text is quoted (C90_key_error), disagreement 93. Further *args are in neither text."
  },
  {
   "property": "C91",
   "status": "partial",
   "theorems": [
    "V8.Props.C91_appends",
    "V8.Props.C91_constraint_lifted",
    "V8.Props.C91_atomic_partial",
    "V8.Props.C91_constant",
    "V8.Props.C91_refused",
    "V8.Props.C91_double",
    "V8.Props.C91_string_object",
    "V8.Props.C91_regexp",
    "V8.Props.C91_negative_reference",
    "V8.Props.C91_left_behind",
    "V8.Props.C91_numbered",
    "V8.Props.C91_agrees"
   ],
   "note": "full statement false of the code: write_double, objects and containers leave a tag, a log entry or earlier entries when they raise (C91_double, C91_string_object, C91_regexp, C91_negative_reference, C91_left_behind); appending and constraints hold without exception; atomicity proved for the methods without parts and for refused arguments"
  },
  {
   "property": "C92",
   "status": "partial",
   "theorems": [
    "V8.Props.C92_now",
    "V8.Props.C92_ends",
    "V8.Props.C92_replace",
    "V8.Props.C92_complete_partial",
    "V8.Props.C92_skipped",
    "V8.Props.C92_cleared",
    "V8.Props.C92_once",
    "V8.Props.C92_again",
    "V8.Props.C92_map",
    "V8.Props.C92_set",
    "V8.Props.C92_written"
   ],
   "note": "full statement false of the code: a rebuilt or cleared dict makes the loop pass over entries (C92_skipped, C92_cleared); completeness proved for loops in which the table is not made anew"
  },
  {
   "property": "C93",
   "status": "partial",
   "theorems": [
    "V8.Props.C93_bytes_partial",
    "V8.Props.C93_stream",
    "V8.Props.C93_strided",
    "V8.Props.C93_strided_fails",
    "V8.Props.C93_signed",
    "V8.Props.C93_signed_varint",
    "V8.Props.C93_items",
    "V8.Props.C93_wide_accepted",
    "V8.Props.C93_wide_double",
    "V8.Props.C93_wide_text",
    "V8.Props.C93_wide_buffer"
   ],
   "note": "Proved for data of unsigned bytes next to each other, and for every buffer of a type that is_readable_binary does not know. Spaced bytes: never read wrongly, but strings and doubles can raise BufferError. False for arrays and memoryviews of other item types: witnesses for headers and doubles, general theorems on strings, array buffers and signed bytes. Formats of floats and several dimensions are not modelled."
  },
  {
   "property": "C94",
   "status": "partial",
   "theorems": [
    "V8.Props.C94_same",
    "V8.Props.C94_oneline",
    "V8.Props.C94_shift",
    "V8.Props.C94_layout_set",
    "V8.Props.C94_layout_array",
    "V8.Props.C94_ok_partial",
    "V8.Props.C94_empty_fill",
    "V8.Props.C94_negative"
   ],
   "note": "proved for every fill value that is not empty and every indent of 0 or more; an empty fill value can raise IndexError and a negative indent ValueError, both proved"
  },
  {
   "property": "C95",
   "status": "partial",
   "theorems": [
    "V8.Props.C95_text_partial",
    "V8.Props.C95_evaluates_partial",
    "V8.Props.C95_equal_partial",
    "V8.Props.C95_indented_partial",
    "V8.Props.C95_two_fills"
   ],
   "note": "the text without indent is the expression of C66 written out, its evaluation gives a copy for values shown in full, and with an indent only the layout differs; missing: objects whose elements and other properties are both cut off in one dict display (there the text has two fill values, C95_two_fills), and that the Python parser reads the text as this expression"
  },
  {
   "property": "C96",
   "status": "proved",
   "theorems": [
    "V8.Props.C96_regions",
    "V8.Props.C96_iter",
    "V8.Props.C96_iter_same",
    "V8.Props.C96_unique",
    "V8.Props.C96_text",
    "V8.Props.C96_same",
    "V8.Props.C96_distinct"
   ],
   "note": "alternating_regions divides every array into its longest runs, there is one way to do so, and str() shows these; the same for dense and sparse"
  }
 ]
}