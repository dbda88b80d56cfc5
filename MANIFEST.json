{
 "claims": [
  {
   "property": "C01",
   "status": "proved",
   "theorems": [
    "Over.c01_type_eq_iff_common_refinement",
    "Over.c01_type_eq_refl",
    "Over.c01_type_eq_symm",
    "Over.c01_type_eq_not_transitive",
    "Over.c01_type_eq_iff_of_noAny"
   ],
   "note": ""
  },
  {
   "property": "C02",
   "status": "proved",
   "theorems": [
    "Over.c02_refines_partial_order",
    "Over.c02_most_specific_some",
    "Over.c02_most_specific_none"
   ],
   "note": ""
  },
  {
   "property": "C03",
   "status": "proved",
   "theorems": [
    "Over.c03_most_specific_comm",
    "Over.c03_most_specific_idem",
    "Over.c03_grouping_eval",
    "Over.c03_order_grouping_repetition_irrelevant",
    "Over.c03_most_specific_assoc"
   ],
   "note": ""
  },
  {
   "property": "C04",
   "status": "proved",
   "theorems": [
    "Over.c04_is_iff",
    "Over.c04_is_implies_eq",
    "Over.c04_eq_implies_is",
    "Over.c04_has_any_iff"
   ],
   "note": ""
  },
  {
   "property": "C05",
   "status": "proved",
   "theorems": [
    "Over.c05_from_values_succeeds_iff",
    "Over.c05_from_values_result",
    "Over.c05_from_values_order_irrelevant"
   ],
   "note": ""
  },
  {
   "property": "C06",
   "status": "proved",
   "theorems": [
    "Over.c06_from_values_error",
    "Over.c06_from_values_error_complete"
   ],
   "note": ""
  },
  {
   "property": "C07",
   "status": "proved",
   "theorems": [
    "Over.c07_arr_iter",
    "Over.c07_tup_iter",
    "Over.c07_defaults",
    "Over.c07_arr_get",
    "Over.c07_tup_get",
    "Over.c07_arr_from_values",
    "Over.c07_tup_from_values"
   ],
   "note": ""
  },
  {
   "property": "C08",
   "status": "proved",
   "theorems": [
    "Over.c08_tup_types"
   ],
   "note": ""
  },
  {
   "property": "C09",
   "status": "proved",
   "theorems": [
    "Over.c09_value_eq_iff",
    "Over.c09_obj_eq_iff",
    "Over.c09_arr_tup_eq_iff",
    "Over.c09_value_eq_equivalence",
    "Over.c09_constructors_well_typed",
    "Over.c09_unchecked_not_transitive",
    "Over.c09_reflexive_symmetric_always"
   ],
   "note": ""
  },
  {
   "property": "C10",
   "status": "proved",
   "theorems": [
    "Over.c10_getters_ok",
    "Over.c10_getters_error",
    "Over.c10_is_null",
    "Over.c10_obj_getter",
    "Over.c10_obj_getters",
    "Over.c10_obj_field_not_found"
   ],
   "note": ""
  },
  {
   "property": "C11",
   "status": "proved",
   "theorems": [
    "Over.c11_eq_int",
    "Over.c11_from_int"
   ],
   "note": ""
  },
  {
   "property": "C12",
   "status": "proved",
   "theorems": [
    "Over.c12_iter_in_order",
    "Over.c12_iter",
    "Over.c12_chain_exists_unique",
    "Over.c12_get_with_source",
    "Over.c12_get_eq_source",
    "Over.c12_own_fields"
   ],
   "note": ""
  },
  {
   "property": "C13",
   "status": "proved",
   "theorems": [
    "Over.c13_is_valid_field_iff",
    "Over.c13_from_pairs_ok",
    "Over.c13_from_pairs_error",
    "Over.c13_surprising_names"
   ],
   "note": ""
  },
  {
   "property": "C14",
   "status": "proved",
   "theorems": [
    "Over.c14_obj_eq",
    "Over.c14_field_order_matters"
   ],
   "note": ""
  },
  {
   "property": "C15",
   "status": "proved",
   "theorems": [
    "Over.c15_try_obj"
   ],
   "note": ""
  },
  {
   "property": "C16",
   "status": "proved",
   "theorems": [
    "Over.c16_string_round_trip",
    "Over.c16_string_consumed_exactly"
   ],
   "note": ""
  },
  {
   "property": "C17",
   "status": "proved",
   "theorems": [
    "Over.c17_int_round_trip",
    "Over.c17_frac_round_trip"
   ],
   "note": ""
  },
  {
   "property": "C18",
   "status": "proved",
   "theorems": [
    "Over.c18_round_trip",
    "Over.c18_round_trip_iff"
   ],
   "note": ""
  },
  {
   "property": "C19",
   "status": "proved",
   "theorems": [
    "Over.c19_reread",
    "Over.c19_written_text_can_be_rejected"
   ],
   "note": ""
  },
  {
   "property": "C20",
   "status": "proved",
   "theorems": [
    "Over.c20_write_total",
    "Over.c20_display_total",
    "Over.c20_write_ignores_identity",
    "Over.c20_display_ignores_identity",
    "Over.c20_equal_written_alike"
   ],
   "note": ""
  },
  {
   "property": "C21",
   "status": "proved",
   "theorems": [
    "Over.c21_canonical",
    "Over.c21_injective",
    "Over.c21_parsed_equal_iff_written_alike"
   ],
   "note": ""
  },
  {
   "property": "C22",
   "status": "proved",
   "theorems": [
    "Over.c22_file_round_trip"
   ],
   "note": ""
  },
  {
   "property": "C23",
   "status": "proved",
   "theorems": [
    "Over.c23_from_str_terminates",
    "Over.c23_from_file_terminates",
    "Over.c23_bound_irrelevant",
    "Over.c23_bound_irrelevant_file"
   ],
   "note": ""
  },
  {
   "property": "C24",
   "status": "proved",
   "theorems": [
    "Over.c24_from_str_no_panic",
    "Over.c24_from_file_no_panic",
    "Over.c24_from_file_can_panic"
   ],
   "note": ""
  },
  {
   "property": "C25",
   "status": "proved",
   "theorems": [
    "Over.c25_too_deep_rejected",
    "Over.c25_too_deep_file_rejected",
    "Over.c25_only_too_deep",
    "Over.c25_place",
    "Over.c25_signs",
    "Over.c25_points_at_bracket"
   ],
   "note": ""
  },
  {
   "property": "C26",
   "status": "proved",
   "theorems": [
    "Over.c26_parsed_well_typed"
   ],
   "note": ""
  },
  {
   "property": "C27",
   "status": "proved",
   "theorems": [
    "Over.c27_parsed_names_ok",
    "Over.c27_names_not_special"
   ],
   "note": ""
  },
  {
   "property": "C28",
   "status": "proved",
   "theorems": [
    "Over.c28_chain_anywhere",
    "Over.c28_one_reading",
    "Over.c28_expression",
    "Over.c28_chain"
   ],
   "note": ""
  },
  {
   "property": "C29",
   "status": "proved",
   "theorems": [
    "Over.c29_table_total",
    "Over.c29_operation"
   ],
   "note": ""
  },
  {
   "property": "C30",
   "status": "proved",
   "theorems": [
    "Over.c30_division_by_zero",
    "Over.c30_nonzero_divisor"
   ],
   "note": ""
  },
  {
   "property": "C31",
   "status": "proved",
   "theorems": [
    "Over.c31_integer",
    "Over.c31_decimal",
    "Over.c31_integer_leading_zero",
    "Over.c31_decimal_zeros",
    "Over.c31_underscores",
    "Over.c31_one_value",
    "Over.c31_nothing_else"
   ],
   "note": ""
  },
  {
   "property": "C32",
   "status": "proved",
   "theorems": [
    "Over.c32_variable"
   ],
   "note": ""
  },
  {
   "property": "C33",
   "status": "proved",
   "theorems": [
    "Over.c33_definition",
    "Over.c33_visible_everywhere",
    "Over.c33_undefined",
    "Over.c33_once",
    "Over.c33_not_visible_in_included_files",
    "Over.c33_inner_definition_lost"
   ],
   "note": ""
  },
  {
   "property": "C34",
   "status": "proved",
   "theorems": [
    "Over.c34_parent",
    "Over.c34_not_object",
    "Over.c34_twice"
   ],
   "note": ""
  },
  {
   "property": "C35",
   "status": "proved",
   "theorems": [
    "Over.c35_path",
    "Over.c35_missing",
    "Over.c35_keyword",
    "Over.c35_index",
    "Over.c35_path_index",
    "Over.c35_other",
    "Over.c35_global_after_dot"
   ],
   "note": ""
  },
  {
   "property": "C36",
   "status": "proved",
   "theorems": [
    "Over.c36_from_file_cycle",
    "Over.c36_from_str_cycle",
    "Over.c36_no_cycle"
   ],
   "note": ""
  },
  {
   "property": "C37",
   "status": "proved",
   "theorems": [
    "Over.c37_same_instance",
    "Over.c37_same_instance_in_another_file"
   ],
   "note": ""
  },
  {
   "property": "C38",
   "status": "proved",
   "theorems": [
    "Over.c38_str_is_the_text",
    "Over.c38_requested_kind",
    "Over.c38_obj_is_from_file",
    "Over.c38_obj_of_other_files",
    "Over.c38_arr_is_the_array",
    "Over.c38_tup_is_the_tuple",
    "Over.c38_obj_equals_from_file",
    "Over.c38_obj_equals_from_file_alone",
    "Over.c38_arr_equals_the_array",
    "Over.c38_tup_equals_the_tuple",
    "Over.c38_earlier_includes_matter"
   ],
   "note": ""
  },
  {
   "property": "C39",
   "status": "proved",
   "theorems": [
    "Over.c39_error_located",
    "Over.c39_line_col_inside",
    "Over.c39_end_is_last_line",
    "Over.c39_api_error_inside",
    "Over.c39_other_kinds"
   ],
   "note": ""
  },
  {
   "property": "C40",
   "status": "proved",
   "theorems": [
    "Over.c40_value_char",
    "Over.c40_closing_bracket",
    "Over.c40_field_char",
    "Over.c40_escape_char"
   ],
   "note": ""
  },
  {
   "property": "C41",
   "status": "proved",
   "theorems": [
    "Over.c41_messages_locate",
    "Over.c41_unreadable_main"
   ],
   "note": ""
  },
  {
   "property": "C42",
   "status": "proved",
   "theorems": [
    "Over.c42_same_document",
    "Over.c42_layout",
    "Over.c42_same_reason",
    "Over.c42_around",
    "Over.c42_layout_of_file",
    "Over.c42_same_reason_in_file"
   ],
   "note": ""
  },
  {
   "property": "C43",
   "status": "proved",
   "theorems": [
    "Over.c43_position_after_prefix",
    "Over.c43_next_returns_peek",
    "Over.c43_peek_does_not_move"
   ],
   "note": ""
  },
  {
   "property": "C44",
   "status": "proved",
   "theorems": [
    "Over.c44_from_str_meaning",
    "Over.c44_from_file_meaning",
    "Over.c44_from_file_meaning_or_panic"
   ],
   "note": ""
  },
  {
   "property": "C45",
   "status": "proved",
   "theorems": [
    "Over.c45_from_str_accepts",
    "Over.c45_from_file_accepts",
    "Over.c45_rejects_other_texts",
    "Over.c45_accepts_iff"
   ],
   "note": ""
  },
  {
   "property": "C46",
   "status": "proved",
   "theorems": [
    "Over.c46_incremental",
    "Over.c46_unique",
    "Over.c46_sharp",
    "Over.c46_thread_increasing",
    "Over.c46_keywords",
    "Over.c46_moves_on",
    "Over.c46_own_steps"
   ],
   "note": ""
  },
  {
   "property": "C47",
   "status": "proved",
   "theorems": [
    "Over.c47_same_id_same_container",
    "Over.c47_same_id_same_container_file",
    "Over.c47_containers_are_new",
    "Over.c47_containers_are_new_file",
    "Over.c47_contents_are_older",
    "Over.c47_contents_are_older_file",
    "Over.c47_literals_are_distinct",
    "Over.c47_literal_is_new",
    "Over.c47_references_share"
   ],
   "note": ""
  },
  {
   "property": "C48",
   "status": "proved",
   "theorems": [
    "Over.c48_read_in_order",
    "Over.c48_read_file_in_order",
    "Over.c48_written_in_order",
    "Over.c48_further_definitions"
   ],
   "note": ""
  },
  {
   "property": "C49",
   "status": "proved",
   "theorems": [
    "Over.c49_one_document",
    "Over.c49_one_sequence"
   ],
   "note": ""
  },
  {
   "property": "C50",
   "status": "proved",
   "theorems": [
    "Over.c50_string",
    "Over.c50_unknown_escape",
    "Over.c50_unclosed"
   ],
   "note": ""
  },
  {
   "property": "C51",
   "status": "proved",
   "theorems": [
    "Over.c51_from_str",
    "Over.c51_from_file",
    "Over.c51_from_str_equal",
    "Over.c51_again"
   ],
   "note": ""
  },
  {
   "property": "C52",
   "status": "proved",
   "theorems": [
    "Over.c52_from_str_more_files",
    "Over.c52_from_file_more_files",
    "Over.c52_removed_file"
   ],
   "note": ""
  },
  {
   "property": "C53",
   "status": "proved",
   "theorems": [
    "Over.c53_name_stands_there",
    "Over.c53_operand_stands_there",
    "Over.c53_api_error",
    "Over.c53_dot",
    "Over.c53_number"
   ],
   "note": ""
  },
  {
   "property": "C54",
   "status": "proved",
   "theorems": [
    "Over.c54_type_display",
    "Over.c54_type_display_injective",
    "Over.c54_char_display",
    "Over.c54_over_error_injective",
    "Over.c54_over_error_in_text",
    "Over.c54_kind_injective",
    "Over.c54_parse_error_injective",
    "Over.c54_kind_ne_over"
   ],
   "note": ""
  },
  {
   "property": "C55",
   "status": "proved",
   "theorems": [
    "Over.c55_lines_after_an_error",
    "Over.c55_lines_added_to_file"
   ],
   "note": ""
  },
  {
   "property": "C56",
   "status": "proved",
   "theorems": [
    "Over.c56_definitions_added",
    "Over.c56_definitions_added_to_file",
    "Over.c56_fields_stay",
    "Over.c56_fields_stay_in_file"
   ],
   "note": ""
  },
  {
   "property": "C57",
   "status": "proved",
   "theorems": [
    "Over.c57_blame",
    "Over.c57_blame_in_file"
   ],
   "note": ""
  },
  {
   "property": "C58",
   "status": "proved",
   "theorems": [
    "Over.c58_from_file_is_from_str",
    "Over.c58_from_file_error"
   ],
   "note": ""
  },
  {
   "property": "C59",
   "status": "proved",
   "theorems": [
    "Over.c59_cut_text",
    "Over.c59_cut_text_elsewhere",
    "Over.c59_cut_file",
    "Over.c59_cut_file_elsewhere"
   ],
   "note": ""
  },
  {
   "property": "C60",
   "status": "proved",
   "theorems": [
    "Over.c60_torn_text",
    "Over.c60_lines",
    "Over.c60_torn_parent",
    "Over.c60_cut_between_fields",
    "Over.c60_other_files",
    "Over.c60_file_contents",
    "Over.c60_error",
    "Over.c60_torn_file",
    "Over.c60_cut_number_unnoticed",
    "Over.c60_cut_keyword_unnoticed"
   ],
   "note": ""
  },
  {
   "property": "C61",
   "status": "proved",
   "theorems": [
    "Over.c61_eq_is_eq_of_converted",
    "Over.c61_both_directions",
    "Over.c61_equals_converted",
    "Over.c61_which_values",
    "Over.c61_converted",
    "Over.c61_int_is_not_frac",
    "Over.c61_getter_then_compare"
   ],
   "note": ""
  },
  {
   "property": "C62",
   "status": "proved",
   "theorems": [
    "Over.c62_error_eq_iff",
    "Over.c62_reflexive_symmetric",
    "Over.c62_not_transitive",
    "Over.c62_without_any"
   ],
   "note": ""
  },
  {
   "property": "C63",
   "status": "proved",
   "theorems": [
    "Over.c63_arr_panics_iff",
    "Over.c63_arr_result",
    "Over.c63_tup_result",
    "Over.c63_obj",
    "Over.c63_obj_panics_iff",
    "Over.c63_frac",
    "Over.c63_int"
   ],
   "note": ""
  },
  {
   "property": "C64",
   "status": "proved",
   "theorems": [
    "Over.c64_rename",
    "Over.c64_renamed_text",
    "Over.c64_global_names",
    "Over.c64_rename_in_file",
    "Over.c64_global_names_in_file"
   ],
   "note": ""
  },
  {
   "property": "C65",
   "status": "proved",
   "theorems": [
    "Over.c65_from_str",
    "Over.c65_accepted",
    "Over.c65_from_file"
   ],
   "note": ""
  },
  {
   "property": "C66",
   "status": "proved",
   "theorems": [
    "Over.c66_leave_out",
    "Over.c66_add",
    "Over.c66_expand",
    "Over.c66_leave_out_of_file",
    "Over.c66_expand_in_file"
   ],
   "note": ""
  },
  {
   "property": "C67",
   "status": "proved",
   "theorems": [
    "Over.c67_num_references",
    "Over.c67_no_dangling",
    "Over.c67_no_leak",
    "Over.c67_all_freed",
    "Over.c67_drops_end",
    "Over.c67_of_values"
   ],
   "note": ""
  },
  {
   "property": "C68",
   "status": "proved",
   "theorems": [
    "Over.c68_means_one_value",
    "Over.c68_values_do_not_change",
    "Over.c68_ptr_eq",
    "Over.c68_ptr_eq_obj",
    "Over.c68_ptr_eq_arr",
    "Over.c68_ptr_eq_tup",
    "Over.c68_new_arr",
    "Over.c68_new_tup",
    "Over.c68_new_obj",
    "Over.c68_arr_get",
    "Over.c68_tup_get",
    "Over.c68_obj_get"
   ],
   "note": ""
  },
  {
   "property": "C69",
   "status": "proved",
   "theorems": [
    "Over.c69_paste",
    "Over.c69_too_deep",
    "Over.c69_paste_iff",
    "Over.c69_display_injective",
    "Over.c69_display_of_containers"
   ],
   "note": ""
  },
  {
   "property": "C70",
   "status": "proved",
   "theorems": [
    "Over.c70_closed_text",
    "Over.c70_same_value",
    "Over.c70_include_to_text",
    "Over.c70_text_to_include"
   ],
   "note": ""
  },
  {
   "property": "C71",
   "status": "proved",
   "theorems": [
    "Over.c71_every_operation",
    "Over.c71_clone_and_drop",
    "Over.c71_reads_the_text",
    "Over.c71_all_freed"
   ],
   "note": ""
  },
  {
   "property": "C72",
   "status": "proved",
   "theorems": [
    "Over.c72_from_str_snapshot",
    "Over.c72_from_file_snapshot",
    "Over.c72_no_panic",
    "Over.c72_unchanged",
    "Over.c72_removed_file_can_panic"
   ],
   "note": ""
  },
  {
   "property": "C73",
   "status": "proved",
   "theorems": [
    "Over.c73_well_typed",
    "Over.c73_valid_names",
    "Over.c73_same_id_same_container",
    "Over.c73_ids_in_use",
    "Over.c73_contents_are_older",
    "Over.c73_equality",
    "Over.c73_equality_transitive",
    "Over.c73_ptr_eq",
    "Over.c73_equal_written_alike"
   ],
   "note": ""
  },
  {
   "property": "C74",
   "status": "proved",
   "theorems": [
    "Over.c74_from_str",
    "Over.c74_from_file",
    "Over.c74_unreadable_file",
    "Over.c74_unwritable_file",
    "Over.c74_variants",
    "Over.c74_field_errors"
   ],
   "note": ""
  },
  {
   "property": "C75",
   "status": "proved",
   "theorems": [
    "Over.c75_beside",
    "Over.c75_nowhere_else",
    "Over.c75_any_path",
    "Over.c75_absolute"
   ],
   "note": ""
  },
  {
   "property": "C76",
   "status": "proved",
   "theorems": [
    "Over.c76_same_files",
    "Over.c76_from_str",
    "Over.c76_more_files",
    "Over.c76_moved_project",
    "Over.c76_from_str_moved",
    "Over.c76_same_surroundings",
    "Over.c76_other_path_to_directory",
    "Over.c76_from_str_elsewhere"
   ],
   "note": ""
  },
  {
   "property": "C77",
   "status": "proved",
   "theorems": [
    "Over.c77_rearranged",
    "Over.c77_rearranged_get",
    "Over.c77_leave_out_field",
    "Over.c77_leave_out_parent",
    "Over.c77_rearranged_file",
    "Over.c77_leave_out_of_file"
   ],
   "note": ""
  },
  {
   "property": "C78",
   "status": "proved",
   "theorems": [
    "Over.c78_respelled",
    "Over.c78_same_reason",
    "Over.c78_respelled_file",
    "Over.c78_same_reason_in_file",
    "Over.c78_relaid",
    "Over.c78_relaid_files"
   ],
   "note": ""
  },
  {
   "property": "C79",
   "status": "proved",
   "theorems": [
    "Over.c79_nesting",
    "Over.c79_nesting_file",
    "Over.c79_path_nesting",
    "Over.c79_signs_nest"
   ],
   "note": ""
  },
  {
   "property": "C80",
   "status": "proved",
   "theorems": [
    "Over.c80_ids",
    "Over.c80_ids_file",
    "Over.c80_containers",
    "Over.c80_containers_file",
    "Over.c80_long_string",
    "Over.c80_large_integer"
   ],
   "note": ""
  },
  {
   "property": "C81",
   "status": "proved",
   "theorems": [
    "Over.c81_start",
    "Over.c81_call",
    "Over.c81_drop",
    "Over.c81_history",
    "Over.c81_alive",
    "Over.c81_num_references",
    "Over.c81_one_allocation"
   ],
   "note": ""
  },
  {
   "property": "C82",
   "status": "proved",
   "theorems": [
    "Over.c82_written_lines",
    "Over.c82_display_lines",
    "Over.c82_display_containers",
    "Over.c82_fields_apart",
    "Over.c82_one_field",
    "Over.c82_nested",
    "Over.c82_tidy",
    "Over.c82_tidy_history",
    "Over.c82_tidy_display"
   ],
   "note": ""
  },
  {
   "property": "C83",
   "status": "proved",
   "theorems": [
    "Over.c83_reordered",
    "Over.c83_accepted_iff",
    "Over.c83_reordered_file",
    "Over.c83_get",
    "Over.c83_project",
    "Over.c83_project_file",
    "Over.c83_project_accepted_iff",
    "Over.c83_project_file_accepted_iff"
   ],
   "note": ""
  },
  {
   "property": "C84",
   "status": "proved",
   "theorems": [
    "Over.c84_object_or_list",
    "Over.c84_object_file_or_list"
   ],
   "note": ""
  },
  {
   "property": "C85",
   "status": "proved",
   "theorems": [
    "Over.c85_sums_regroup",
    "Over.c85_differences_regroup",
    "Over.c85_products_regroup",
    "Over.c85_quotients_regroup",
    "Over.c85_distribute",
    "Over.c85_subtract_adds",
    "Over.c85_products_commute",
    "Over.c85_sums_commute",
    "Over.c85_any_order"
   ],
   "note": ""
  },
  {
   "property": "C86",
   "status": "proved",
   "theorems": [
    "Over.c86_one_type",
    "Over.c86_sound",
    "Over.c86_complete",
    "Over.c86_zero",
    "Over.c86_ill_typed",
    "Over.c86_types_only"
   ],
   "note": ""
  },
  {
   "property": "C87",
   "status": "proved",
   "theorems": [
    "Over.c87_from_str",
    "Over.c87_from_file",
    "Over.c87_same_instance",
    "Over.c87_same_instance_file"
   ],
   "note": ""
  },
  {
   "property": "C88",
   "status": "proved",
   "theorems": [
    "Over.c88_from_str",
    "Over.c88_from_file",
    "Over.c88_accepted",
    "Over.c88_project",
    "Over.c88_project_file",
    "Over.c88_project_accepted",
    "Over.c88_exceptions"
   ],
   "note": ""
  },
  {
   "property": "C89",
   "status": "proved",
   "theorems": [
    "Over.c89_from_str",
    "Over.c89_accepted",
    "Over.c89_from_file",
    "Over.c89_one_definition",
    "Over.c89_project",
    "Over.c89_project_file",
    "Over.c89_project_accepted"
   ],
   "note": ""
  },
  {
   "property": "C90",
   "status": "proved",
   "theorems": [
    "Over.c90_shown_same",
    "Over.c90_from_str",
    "Over.c90_from_file",
    "Over.c90_one_definition",
    "Over.c90_project",
    "Over.c90_project_file"
   ],
   "note": ""
  }
 ]
}