'Over.c01_type_eq_iff_common_refinement' depends on axioms: [propext, Quot.sound]
'Over.c01_type_eq_iff_of_noAny' depends on axioms: [propext, Quot.sound]
'Over.c01_type_eq_not_transitive' depends on axioms: [propext]
'Over.c01_type_eq_refl' depends on axioms: [propext, Quot.sound]
'Over.c01_type_eq_symm' depends on axioms: [propext, Quot.sound]
'Over.c02_most_specific_none' depends on axioms: [propext, Classical.choice, Quot.sound]
'Over.c02_most_specific_some' depends on axioms: [propext, Classical.choice, Quot.sound]
'Over.c02_refines_partial_order' depends on axioms: [propext, Quot.sound]
'Over.c03_grouping_eval' depends on axioms: [propext, Classical.choice, Quot.sound]
'Over.c03_most_specific_assoc' depends on axioms: [propext, Classical.choice, Quot.sound]
'Over.c03_most_specific_comm' depends on axioms: [propext, Classical.choice, Quot.sound]
'Over.c03_most_specific_idem' depends on axioms: [propext, Classical.choice, Quot.sound]
'Over.c03_order_grouping_repetition_irrelevant' depends on axioms: [propext, Classical.choice, Quot.sound]
'Over.c04_eq_implies_is' depends on axioms: [propext, Classical.choice, Quot.sound]
'Over.c04_has_any_iff' depends on axioms: [propext, Quot.sound]
'Over.c04_is_iff' depends on axioms: [propext, Classical.choice, Quot.sound]
'Over.c04_is_implies_eq' depends on axioms: [propext, Classical.choice, Quot.sound]
'Over.c05_from_values_order_irrelevant' depends on axioms: [propext, Classical.choice, Quot.sound]
'Over.c05_from_values_result' depends on axioms: [propext, Classical.choice, Quot.sound]
'Over.c05_from_values_succeeds_iff' depends on axioms: [propext, Classical.choice, Quot.sound]
'Over.c06_from_values_error' depends on axioms: [propext, Classical.choice, Quot.sound]
'Over.c06_from_values_error_complete' depends on axioms: [propext, Classical.choice, Quot.sound]
'Over.c07_arr_from_values' depends on axioms: [propext, Classical.choice, Quot.sound]
'Over.c07_arr_get' depends on axioms: [propext]
'Over.c07_arr_iter' depends on axioms: [propext]
'Over.c07_defaults' depends on axioms: [propext]
'Over.c07_tup_from_values' depends on axioms: [propext, Quot.sound]
'Over.c07_tup_get' depends on axioms: [propext]
'Over.c07_tup_iter' depends on axioms: [propext]
'Over.c08_tup_types' depends on axioms: [propext]
'Over.c09_arr_tup_eq_iff' depends on axioms: [propext, Quot.sound]
'Over.c09_constructors_well_typed' depends on axioms: [propext, Classical.choice, Quot.sound]
'Over.c09_obj_eq_iff' depends on axioms: [propext, Quot.sound]
'Over.c09_reflexive_symmetric_always' depends on axioms: [propext, Classical.choice, Quot.sound]
'Over.c09_unchecked_not_transitive' depends on axioms: [propext]
'Over.c09_value_eq_equivalence' depends on axioms: [propext, Quot.sound]
'Over.c09_value_eq_iff' depends on axioms: [propext, Quot.sound]
'Over.c10_getters_error' depends on axioms: [propext, Classical.choice, Quot.sound]
'Over.c10_getters_ok' depends on axioms: [propext, Classical.choice, Quot.sound]
'Over.c10_is_null' depends on axioms: [propext]
'Over.c10_obj_field_not_found' depends on axioms: [propext, Classical.choice, Quot.sound]
'Over.c10_obj_getter' depends on axioms: [propext]
'Over.c10_obj_getters' depends on axioms: [propext, Classical.choice, Quot.sound]
'Over.c11_eq_int' depends on axioms: [propext, Classical.choice, Quot.sound]
'Over.c11_from_int' depends on axioms: [propext, Classical.choice, Quot.sound]
'Over.c12_chain_exists_unique' depends on axioms: [propext, Quot.sound]
'Over.c12_get_eq_source' depends on axioms: [propext, Quot.sound]
'Over.c12_get_with_source' depends on axioms: [propext, Classical.choice, Quot.sound]
'Over.c12_iter' depends on axioms: [propext, Classical.choice, Quot.sound]
'Over.c12_iter_in_order' does not depend on any axioms
'Over.c12_own_fields' depends on axioms: [propext, Quot.sound]
'Over.c13_from_pairs_error' depends on axioms: [propext, Quot.sound]
'Over.c13_from_pairs_ok' depends on axioms: [propext, Quot.sound]
'Over.c13_is_valid_field_iff' depends on axioms: [propext, Quot.sound]
'Over.c13_surprising_names' depends on axioms: [propext, Classical.choice, Quot.sound]
'Over.c14_field_order_matters' depends on axioms: [propext]
'Over.c14_obj_eq' depends on axioms: [propext, Quot.sound]
'Over.c15_try_obj' depends on axioms: [propext, Classical.choice, Quot.sound]
'Over.c16_string_consumed_exactly' depends on axioms: [propext, Classical.choice, Quot.sound]
'Over.c16_string_round_trip' depends on axioms: [propext, Classical.choice, Quot.sound]
'Over.c17_frac_round_trip' depends on axioms: [propext, Classical.choice, Quot.sound]
'Over.c17_int_round_trip' depends on axioms: [propext, Classical.choice, Quot.sound]
'Over.c18_round_trip' depends on axioms: [propext, Classical.choice, Quot.sound]
'Over.c18_round_trip_iff' depends on axioms: [propext, Classical.choice, Quot.sound]
'Over.c19_reread' depends on axioms: [propext, Classical.choice, Quot.sound]
'Over.c19_written_text_can_be_rejected' depends on axioms: [propext, Classical.choice, Quot.sound]
'Over.c20_display_ignores_identity' depends on axioms: [propext, Quot.sound]
'Over.c20_display_total' depends on axioms: [propext, Classical.choice, Quot.sound]
'Over.c20_equal_written_alike' depends on axioms: [propext, Quot.sound]
'Over.c20_write_ignores_identity' depends on axioms: [propext, Quot.sound]
'Over.c20_write_total' depends on axioms: [propext, Classical.choice, Quot.sound]
'Over.c21_canonical' depends on axioms: [propext, Classical.choice, Quot.sound]
'Over.c21_injective' depends on axioms: [propext, Classical.choice, Quot.sound]
'Over.c21_parsed_equal_iff_written_alike' depends on axioms: [propext, Classical.choice, Quot.sound]
'Over.c22_file_round_trip' depends on axioms: [propext, Classical.choice, Quot.sound]
'Over.c23_bound_irrelevant' depends on axioms: [propext, Classical.choice, Quot.sound]
'Over.c23_bound_irrelevant_file' depends on axioms: [propext, Classical.choice, Quot.sound]
'Over.c23_from_file_terminates' depends on axioms: [propext, Classical.choice, Quot.sound]
'Over.c23_from_str_terminates' depends on axioms: [propext, Classical.choice, Quot.sound]
'Over.c24_from_file_can_panic' depends on axioms: [propext, Classical.choice, Quot.sound]
'Over.c24_from_file_no_panic' depends on axioms: [propext, Classical.choice, Quot.sound]
'Over.c24_from_str_no_panic' depends on axioms: [propext, Classical.choice, Quot.sound]
'Over.c25_only_too_deep' depends on axioms: [propext, Classical.choice, Quot.sound]
'Over.c25_place' depends on axioms: [propext, Classical.choice, Quot.sound]
'Over.c25_points_at_bracket' depends on axioms: [propext, Classical.choice, Quot.sound]
'Over.c25_signs' depends on axioms: [propext, Classical.choice, Quot.sound]
'Over.c25_too_deep_file_rejected' depends on axioms: [propext, Classical.choice, Quot.sound]
'Over.c25_too_deep_rejected' depends on axioms: [propext, Classical.choice, Quot.sound]
'Over.c26_parsed_well_typed' depends on axioms: [propext, Classical.choice, Quot.sound]
'Over.c27_names_not_special' depends on axioms: [propext, Classical.choice, Quot.sound]
'Over.c27_parsed_names_ok' depends on axioms: [propext, Classical.choice, Quot.sound]
'Over.c28_chain' depends on axioms: [propext, Classical.choice, Quot.sound]
'Over.c28_chain_anywhere' depends on axioms: [propext, Classical.choice, Quot.sound]
'Over.c28_expression' depends on axioms: [propext, Classical.choice, Quot.sound]
'Over.c28_one_reading' depends on axioms: [propext, Classical.choice, Quot.sound]
'Over.c29_operation' depends on axioms: [propext, Classical.choice, Quot.sound]
'Over.c29_table_total' depends on axioms: [propext, Classical.choice, Quot.sound]
'Over.c30_division_by_zero' depends on axioms: [propext, Classical.choice, Quot.sound]
'Over.c30_nonzero_divisor' depends on axioms: [propext, Classical.choice, Quot.sound]
'Over.c31_decimal' depends on axioms: [propext, Classical.choice, Quot.sound]
'Over.c31_decimal_zeros' depends on axioms: [propext, Classical.choice, Quot.sound]
'Over.c31_integer' depends on axioms: [propext, Classical.choice, Quot.sound]
'Over.c31_integer_leading_zero' depends on axioms: [propext, Classical.choice, Quot.sound]
'Over.c31_nothing_else' depends on axioms: [propext, Classical.choice, Quot.sound]
'Over.c31_one_value' depends on axioms: [propext, Classical.choice, Quot.sound]
'Over.c31_underscores' depends on axioms: [propext, Classical.choice, Quot.sound]
'Over.c32_variable' depends on axioms: [propext, Classical.choice, Quot.sound]
'Over.c33_definition' depends on axioms: [propext, Classical.choice, Quot.sound]
'Over.c33_inner_definition_lost' depends on axioms: [propext, Classical.choice, Quot.sound]
'Over.c33_not_visible_in_included_files' depends on axioms: [propext, Classical.choice, Quot.sound]
'Over.c33_once' depends on axioms: [propext, Classical.choice, Quot.sound]
'Over.c33_undefined' depends on axioms: [propext, Classical.choice, Quot.sound]
'Over.c33_visible_everywhere' depends on axioms: [propext, Classical.choice, Quot.sound]
'Over.c34_not_object' depends on axioms: [propext, Classical.choice, Quot.sound]
'Over.c34_parent' depends on axioms: [propext, Classical.choice, Quot.sound]
'Over.c34_twice' depends on axioms: [propext, Classical.choice, Quot.sound]
'Over.c35_global_after_dot' depends on axioms: [propext, Classical.choice, Quot.sound]
'Over.c35_index' depends on axioms: [propext, Classical.choice, Quot.sound]
'Over.c35_keyword' depends on axioms: [propext, Classical.choice, Quot.sound]
'Over.c35_missing' depends on axioms: [propext, Classical.choice, Quot.sound]
'Over.c35_other' depends on axioms: [propext, Classical.choice, Quot.sound]
'Over.c35_path' depends on axioms: [propext, Classical.choice, Quot.sound]
'Over.c35_path_index' depends on axioms: [propext, Classical.choice, Quot.sound]
'Over.c36_from_file_cycle' depends on axioms: [propext, Classical.choice, Quot.sound]
'Over.c36_from_str_cycle' depends on axioms: [propext, Classical.choice, Quot.sound]
'Over.c36_no_cycle' depends on axioms: [propext, Classical.choice, Quot.sound]
'Over.c37_same_instance' depends on axioms: [propext, Classical.choice, Quot.sound]
'Over.c37_same_instance_in_another_file' depends on axioms: [propext, Classical.choice, Quot.sound]
'Over.c38_arr_equals_the_array' depends on axioms: [propext, Classical.choice, Quot.sound]
'Over.c38_arr_is_the_array' depends on axioms: [propext, Classical.choice, Quot.sound]
'Over.c38_earlier_includes_matter' depends on axioms: [propext, Classical.choice, Quot.sound]
'Over.c38_obj_equals_from_file' depends on axioms: [propext, Classical.choice, Quot.sound]
'Over.c38_obj_equals_from_file_alone' depends on axioms: [propext, Classical.choice, Quot.sound]
'Over.c38_obj_is_from_file' depends on axioms: [propext, Classical.choice, Quot.sound]
'Over.c38_obj_of_other_files' depends on axioms: [propext, Classical.choice, Quot.sound]
'Over.c38_requested_kind' depends on axioms: [propext, Classical.choice, Quot.sound]
'Over.c38_str_is_the_text' depends on axioms: [propext, Classical.choice, Quot.sound]
'Over.c38_tup_equals_the_tuple' depends on axioms: [propext, Classical.choice, Quot.sound]
'Over.c38_tup_is_the_tuple' depends on axioms: [propext, Classical.choice, Quot.sound]
'Over.c39_api_error_inside' depends on axioms: [propext, Classical.choice, Quot.sound]
'Over.c39_end_is_last_line' depends on axioms: [propext, Classical.choice, Quot.sound]
'Over.c39_error_located' depends on axioms: [propext, Classical.choice, Quot.sound]
'Over.c39_line_col_inside' depends on axioms: [propext, Classical.choice, Quot.sound]
'Over.c39_other_kinds' depends on axioms: [propext, Classical.choice, Quot.sound]
'Over.c40_closing_bracket' depends on axioms: [propext, Classical.choice, Quot.sound]
'Over.c40_escape_char' depends on axioms: [propext, Classical.choice, Quot.sound]
'Over.c40_field_char' depends on axioms: [propext, Classical.choice, Quot.sound]
'Over.c40_value_char' depends on axioms: [propext, Classical.choice, Quot.sound]
'Over.c41_messages_locate' depends on axioms: [propext, Classical.choice, Quot.sound]
'Over.c41_unreadable_main' depends on axioms: [propext, Classical.choice, Quot.sound]
'Over.c42_around' depends on axioms: [propext, Classical.choice, Quot.sound]
'Over.c42_layout' depends on axioms: [propext, Classical.choice, Quot.sound]
'Over.c42_layout_of_file' depends on axioms: [propext, Classical.choice, Quot.sound]
'Over.c42_same_document' depends on axioms: [propext, Classical.choice, Quot.sound]
'Over.c42_same_reason' depends on axioms: [propext, Classical.choice, Quot.sound]
'Over.c42_same_reason_in_file' depends on axioms: [propext, Classical.choice, Quot.sound]
'Over.c43_next_returns_peek' depends on axioms: [propext]
'Over.c43_peek_does_not_move' does not depend on any axioms
'Over.c43_position_after_prefix' depends on axioms: [propext, Quot.sound]
'Over.c44_from_file_meaning' depends on axioms: [propext, Classical.choice, Quot.sound]
'Over.c44_from_file_meaning_or_panic' depends on axioms: [propext, Classical.choice, Quot.sound]
'Over.c44_from_str_meaning' depends on axioms: [propext, Classical.choice, Quot.sound]
'Over.c45_accepts_iff' depends on axioms: [propext, Classical.choice, Quot.sound]
'Over.c45_from_file_accepts' depends on axioms: [propext, Classical.choice, Quot.sound]
'Over.c45_from_str_accepts' depends on axioms: [propext, Classical.choice, Quot.sound]
'Over.c45_rejects_other_texts' depends on axioms: [propext, Classical.choice, Quot.sound]
'Over.c46_incremental' depends on axioms: [propext, Quot.sound]
'Over.c46_keywords' depends on axioms: [propext, Classical.choice, Quot.sound]
'Over.c46_moves_on' depends on axioms: [propext, Classical.choice, Quot.sound]
'Over.c46_own_steps' depends on axioms: [propext, Quot.sound]
'Over.c46_sharp' depends on axioms: [propext, Quot.sound]
'Over.c46_thread_increasing' depends on axioms: [propext, Classical.choice, Quot.sound]
'Over.c46_unique' depends on axioms: [propext, Classical.choice, Quot.sound]
'Over.c47_containers_are_new' depends on axioms: [propext, Classical.choice, Quot.sound]
'Over.c47_containers_are_new_file' depends on axioms: [propext, Classical.choice, Quot.sound]
'Over.c47_contents_are_older' depends on axioms: [propext, Classical.choice, Quot.sound]
'Over.c47_contents_are_older_file' depends on axioms: [propext, Classical.choice, Quot.sound]
'Over.c47_literal_is_new' depends on axioms: [propext, Classical.choice, Quot.sound]
'Over.c47_literals_are_distinct' depends on axioms: [propext, Classical.choice, Quot.sound]
'Over.c47_references_share' depends on axioms: [propext, Classical.choice, Quot.sound]
'Over.c47_same_id_same_container' depends on axioms: [propext, Classical.choice, Quot.sound]
'Over.c47_same_id_same_container_file' depends on axioms: [propext, Classical.choice, Quot.sound]
'Over.c48_further_definitions' depends on axioms: [propext, Classical.choice, Quot.sound]
'Over.c48_read_file_in_order' depends on axioms: [propext, Classical.choice, Quot.sound]
'Over.c48_read_in_order' depends on axioms: [propext, Classical.choice, Quot.sound]
'Over.c48_written_in_order' depends on axioms: [propext, Classical.choice, Quot.sound]
'Over.c49_one_document' depends on axioms: [propext, Classical.choice, Quot.sound]
'Over.c49_one_sequence' depends on axioms: [propext, Classical.choice, Quot.sound]
'Over.c50_string' depends on axioms: [propext, Classical.choice, Quot.sound]
'Over.c50_unclosed' depends on axioms: [propext, Classical.choice, Quot.sound]
'Over.c50_unknown_escape' depends on axioms: [propext, Classical.choice, Quot.sound]
'Over.c51_again' depends on axioms: [propext, Classical.choice, Quot.sound]
'Over.c51_from_file' depends on axioms: [propext, Classical.choice, Quot.sound]
'Over.c51_from_str' depends on axioms: [propext, Classical.choice, Quot.sound]
'Over.c51_from_str_equal' depends on axioms: [propext, Classical.choice, Quot.sound]
'Over.c52_from_file_more_files' depends on axioms: [propext, Classical.choice, Quot.sound]
'Over.c52_from_str_more_files' depends on axioms: [propext, Classical.choice, Quot.sound]
'Over.c52_removed_file' depends on axioms: [propext, Classical.choice, Quot.sound]
'Over.c53_api_error' depends on axioms: [propext, Classical.choice, Quot.sound]
'Over.c53_dot' depends on axioms: [propext, Classical.choice, Quot.sound]
'Over.c53_name_stands_there' depends on axioms: [propext, Classical.choice, Quot.sound]
'Over.c53_number' depends on axioms: [propext, Classical.choice, Quot.sound]
'Over.c53_operand_stands_there' depends on axioms: [propext, Classical.choice, Quot.sound]
'Over.c54_char_display' depends on axioms: [propext, Classical.choice, Quot.sound]
'Over.c54_kind_injective' depends on axioms: [propext, Classical.choice, Quot.sound]
'Over.c54_kind_ne_over' depends on axioms: [propext, Quot.sound]
'Over.c54_over_error_in_text' depends on axioms: [propext, Classical.choice, Quot.sound]
'Over.c54_over_error_injective' depends on axioms: [propext, Classical.choice, Quot.sound]
'Over.c54_parse_error_injective' depends on axioms: [propext, Classical.choice, Quot.sound]
'Over.c54_type_display' depends on axioms: [propext, Classical.choice, Quot.sound]
'Over.c54_type_display_injective' depends on axioms: [propext]
'Over.c55_lines_added_to_file' depends on axioms: [propext, Classical.choice, Quot.sound]
'Over.c55_lines_after_an_error' depends on axioms: [propext, Classical.choice, Quot.sound]
'Over.c56_definitions_added' depends on axioms: [propext, Classical.choice, Quot.sound]
'Over.c56_definitions_added_to_file' depends on axioms: [propext, Classical.choice, Quot.sound]
'Over.c56_fields_stay' depends on axioms: [propext, Classical.choice, Quot.sound]
'Over.c56_fields_stay_in_file' depends on axioms: [propext, Classical.choice, Quot.sound]
'Over.c57_blame' depends on axioms: [propext, Classical.choice, Quot.sound]
'Over.c57_blame_in_file' depends on axioms: [propext, Classical.choice, Quot.sound]
'Over.c58_from_file_error' depends on axioms: [propext, Classical.choice, Quot.sound]
'Over.c58_from_file_is_from_str' depends on axioms: [propext, Classical.choice, Quot.sound]
'Over.c59_cut_file' depends on axioms: [propext, Classical.choice, Quot.sound]
'Over.c59_cut_file_elsewhere' depends on axioms: [propext, Classical.choice, Quot.sound]
'Over.c59_cut_text' depends on axioms: [propext, Classical.choice, Quot.sound]
'Over.c59_cut_text_elsewhere' depends on axioms: [propext, Classical.choice, Quot.sound]
'Over.c60_cut_between_fields' depends on axioms: [propext, Classical.choice, Quot.sound]
'Over.c60_cut_keyword_unnoticed' depends on axioms: [propext, Classical.choice, Quot.sound]
'Over.c60_cut_number_unnoticed' depends on axioms: [propext, Classical.choice, Quot.sound]
'Over.c60_error' depends on axioms: [propext, Classical.choice, Quot.sound]
'Over.c60_file_contents' depends on axioms: [propext, Classical.choice, Quot.sound]
'Over.c60_lines' depends on axioms: [propext, Classical.choice, Quot.sound]
'Over.c60_other_files' depends on axioms: [propext, Classical.choice, Quot.sound]
'Over.c60_torn_file' depends on axioms: [propext, Classical.choice, Quot.sound]
'Over.c60_torn_parent' depends on axioms: [propext, Classical.choice, Quot.sound]
'Over.c60_torn_text' depends on axioms: [propext, Classical.choice, Quot.sound]
'Over.c61_both_directions' depends on axioms: [propext]
'Over.c61_converted' depends on axioms: [propext, Classical.choice, Quot.sound]
'Over.c61_eq_is_eq_of_converted' depends on axioms: [propext, Classical.choice, Quot.sound]
'Over.c61_equals_converted' depends on axioms: [propext, Classical.choice, Quot.sound]
'Over.c61_getter_then_compare' depends on axioms: [propext, Classical.choice, Quot.sound]
'Over.c61_int_is_not_frac' depends on axioms: [propext]
'Over.c61_which_values' depends on axioms: [propext, Classical.choice, Quot.sound]
'Over.c62_error_eq_iff' depends on axioms: [propext, Classical.choice, Quot.sound]
'Over.c62_not_transitive' depends on axioms: [propext]
'Over.c62_reflexive_symmetric' depends on axioms: [propext, Classical.choice, Quot.sound]
'Over.c62_without_any' depends on axioms: [propext, Classical.choice, Quot.sound]
'Over.c63_arr_panics_iff' depends on axioms: [propext, Classical.choice, Quot.sound]
'Over.c63_arr_result' depends on axioms: [propext, Classical.choice, Quot.sound]
'Over.c63_frac' depends on axioms: [propext, Classical.choice, Quot.sound]
'Over.c63_int' does not depend on any axioms
'Over.c63_obj' depends on axioms: [propext, Quot.sound]
'Over.c63_obj_panics_iff' depends on axioms: [propext, Classical.choice, Quot.sound]
'Over.c63_tup_result' depends on axioms: [propext]
'Over.c64_global_names' depends on axioms: [propext, Classical.choice, Quot.sound]
'Over.c64_global_names_in_file' depends on axioms: [propext, Classical.choice, Quot.sound]
'Over.c64_rename' depends on axioms: [propext, Classical.choice, Quot.sound]
'Over.c64_rename_in_file' depends on axioms: [propext, Classical.choice, Quot.sound]
'Over.c64_renamed_text' depends on axioms: [propext, Classical.choice, Quot.sound]
'Over.c65_accepted' depends on axioms: [propext, Classical.choice, Quot.sound]
'Over.c65_from_file' depends on axioms: [propext, Classical.choice, Quot.sound]
'Over.c65_from_str' depends on axioms: [propext, Classical.choice, Quot.sound]
'Over.c66_add' depends on axioms: [propext, Classical.choice, Quot.sound]
'Over.c66_expand' depends on axioms: [propext, Classical.choice, Quot.sound]
'Over.c66_expand_in_file' depends on axioms: [propext, Classical.choice, Quot.sound]
'Over.c66_leave_out' depends on axioms: [propext, Classical.choice, Quot.sound]
'Over.c66_leave_out_of_file' depends on axioms: [propext, Classical.choice, Quot.sound]
'Over.c67_all_freed' depends on axioms: [propext, Classical.choice, Quot.sound]
'Over.c67_drops_end' depends on axioms: [propext, Classical.choice, Quot.sound]
'Over.c67_no_dangling' depends on axioms: [propext, Classical.choice, Quot.sound]
'Over.c67_no_leak' depends on axioms: [propext, Classical.choice, Quot.sound]
'Over.c67_num_references' depends on axioms: [propext, Classical.choice, Quot.sound]
'Over.c67_of_values' depends on axioms: [propext, Classical.choice, Quot.sound]
'Over.c68_arr_get' depends on axioms: [propext, Quot.sound]
'Over.c68_means_one_value' depends on axioms: [propext, Classical.choice, Quot.sound]
'Over.c68_new_arr' depends on axioms: [propext, Classical.choice, Quot.sound]
'Over.c68_new_obj' depends on axioms: [propext, Classical.choice, Quot.sound]
'Over.c68_new_tup' depends on axioms: [propext, Classical.choice, Quot.sound]
'Over.c68_obj_get' depends on axioms: [propext, Classical.choice, Quot.sound]
'Over.c68_ptr_eq' depends on axioms: [propext, Classical.choice, Quot.sound]
'Over.c68_ptr_eq_arr' depends on axioms: [propext, Classical.choice, Quot.sound]
'Over.c68_ptr_eq_obj' depends on axioms: [propext, Classical.choice, Quot.sound]
'Over.c68_ptr_eq_tup' depends on axioms: [propext, Classical.choice, Quot.sound]
'Over.c68_tup_get' depends on axioms: [propext, Quot.sound]
'Over.c68_values_do_not_change' depends on axioms: [propext, Classical.choice, Quot.sound]
'Over.c69_display_injective' depends on axioms: [propext, Classical.choice, Quot.sound]
'Over.c69_display_of_containers' depends on axioms: [propext]
'Over.c69_paste' depends on axioms: [propext, Classical.choice, Quot.sound]
'Over.c69_paste_iff' depends on axioms: [propext, Classical.choice, Quot.sound]
'Over.c69_too_deep' depends on axioms: [propext, Classical.choice, Quot.sound]
'Over.c70_closed_text' depends on axioms: [propext, Classical.choice, Quot.sound]
'Over.c70_include_to_text' depends on axioms: [propext, Classical.choice, Quot.sound]
'Over.c70_same_value' depends on axioms: [propext, Classical.choice, Quot.sound]
'Over.c70_text_to_include' depends on axioms: [propext, Classical.choice, Quot.sound]
'Over.c71_all_freed' depends on axioms: [propext, Classical.choice, Quot.sound]
'Over.c71_clone_and_drop' depends on axioms: [propext, Classical.choice, Quot.sound]
'Over.c71_every_operation' depends on axioms: [propext, Classical.choice, Quot.sound]
'Over.c71_reads_the_text' depends on axioms: [propext, Classical.choice, Quot.sound]
'Over.c72_from_file_snapshot' depends on axioms: [propext, Classical.choice, Quot.sound]
'Over.c72_from_str_snapshot' depends on axioms: [propext, Classical.choice, Quot.sound]
'Over.c72_no_panic' depends on axioms: [propext, Classical.choice, Quot.sound]
'Over.c72_removed_file_can_panic' depends on axioms: [propext, Classical.choice, Quot.sound]
'Over.c72_unchanged' depends on axioms: [propext, Classical.choice, Quot.sound]
'Over.c73_contents_are_older' depends on axioms: [propext, Classical.choice, Quot.sound]
'Over.c73_equal_written_alike' depends on axioms: [propext, Classical.choice, Quot.sound]
'Over.c73_equality' depends on axioms: [propext, Classical.choice, Quot.sound]
'Over.c73_equality_transitive' depends on axioms: [propext, Classical.choice, Quot.sound]
'Over.c73_ids_in_use' depends on axioms: [propext, Classical.choice, Quot.sound]
'Over.c73_ptr_eq' depends on axioms: [propext, Classical.choice, Quot.sound]
'Over.c73_same_id_same_container' depends on axioms: [propext, Classical.choice, Quot.sound]
'Over.c73_valid_names' depends on axioms: [propext, Classical.choice, Quot.sound]
'Over.c73_well_typed' depends on axioms: [propext, Classical.choice, Quot.sound]
'Over.c74_field_errors' depends on axioms: [propext]
'Over.c74_from_file' depends on axioms: [propext, Classical.choice, Quot.sound]
'Over.c74_from_str' depends on axioms: [propext, Classical.choice, Quot.sound]
'Over.c74_unreadable_file' depends on axioms: [propext, Classical.choice, Quot.sound]
'Over.c74_unwritable_file' depends on axioms: [propext, Classical.choice, Quot.sound]
'Over.c74_variants' depends on axioms: [propext, Classical.choice, Quot.sound]
'Over.c75_absolute' depends on axioms: [propext, Classical.choice, Quot.sound]
'Over.c75_any_path' depends on axioms: [propext, Classical.choice, Quot.sound]
'Over.c75_beside' depends on axioms: [propext, Classical.choice, Quot.sound]
'Over.c75_nowhere_else' depends on axioms: [propext, Classical.choice, Quot.sound]
'Over.c76_from_str' depends on axioms: [propext, Classical.choice, Quot.sound]
'Over.c76_from_str_elsewhere' depends on axioms: [propext, Classical.choice, Quot.sound]
'Over.c76_from_str_moved' depends on axioms: [propext, Classical.choice, Quot.sound]
'Over.c76_more_files' depends on axioms: [propext, Classical.choice, Quot.sound]
'Over.c76_moved_project' depends on axioms: [propext, Classical.choice, Quot.sound]
'Over.c76_other_path_to_directory' depends on axioms: [propext, Classical.choice, Quot.sound]
'Over.c76_same_files' depends on axioms: [propext, Classical.choice, Quot.sound]
'Over.c76_same_surroundings' depends on axioms: [propext, Classical.choice, Quot.sound]
'Over.c77_leave_out_field' depends on axioms: [propext, Classical.choice, Quot.sound]
'Over.c77_leave_out_of_file' depends on axioms: [propext, Classical.choice, Quot.sound]
'Over.c77_leave_out_parent' depends on axioms: [propext, Classical.choice, Quot.sound]
'Over.c77_rearranged' depends on axioms: [propext, Classical.choice, Quot.sound]
'Over.c77_rearranged_file' depends on axioms: [propext, Classical.choice, Quot.sound]
'Over.c77_rearranged_get' depends on axioms: [propext, Classical.choice, Quot.sound]
'Over.c78_relaid' depends on axioms: [propext, Classical.choice, Quot.sound]
'Over.c78_relaid_files' depends on axioms: [propext, Classical.choice, Quot.sound]
'Over.c78_respelled' depends on axioms: [propext, Classical.choice, Quot.sound]
'Over.c78_respelled_file' depends on axioms: [propext, Classical.choice, Quot.sound]
'Over.c78_same_reason' depends on axioms: [propext, Classical.choice, Quot.sound]
'Over.c78_same_reason_in_file' depends on axioms: [propext, Classical.choice, Quot.sound]
'Over.c79_nesting' depends on axioms: [propext, Classical.choice, Quot.sound]
'Over.c79_nesting_file' depends on axioms: [propext, Classical.choice, Quot.sound]
'Over.c79_path_nesting' depends on axioms: [propext, Classical.choice, Quot.sound]
'Over.c79_signs_nest' depends on axioms: [propext, Classical.choice, Quot.sound]
'Over.c80_containers' depends on axioms: [propext, Classical.choice, Quot.sound]
'Over.c80_containers_file' depends on axioms: [propext, Classical.choice, Quot.sound]
'Over.c80_ids' depends on axioms: [propext, Classical.choice, Quot.sound]
'Over.c80_ids_file' depends on axioms: [propext, Classical.choice, Quot.sound]
'Over.c80_large_integer' depends on axioms: [propext, Classical.choice, Quot.sound]
'Over.c80_long_string' depends on axioms: [propext, Classical.choice, Quot.sound]
'Over.c81_alive' depends on axioms: [propext, Classical.choice, Quot.sound]
'Over.c81_call' depends on axioms: [propext, Classical.choice, Quot.sound]
'Over.c81_drop' depends on axioms: [propext, Classical.choice, Quot.sound]
'Over.c81_history' depends on axioms: [propext, Classical.choice, Quot.sound]
'Over.c81_num_references' depends on axioms: [propext, Classical.choice, Quot.sound]
'Over.c81_one_allocation' depends on axioms: [propext, Classical.choice, Quot.sound]
'Over.c81_start' depends on axioms: [propext, Classical.choice, Quot.sound]
'Over.c82_display_containers' depends on axioms: [propext, Classical.choice, Quot.sound]
'Over.c82_display_lines' depends on axioms: [propext, Classical.choice, Quot.sound]
'Over.c82_fields_apart' depends on axioms: [propext, Classical.choice, Quot.sound]
'Over.c82_nested' depends on axioms: [propext, Classical.choice, Quot.sound]
'Over.c82_one_field' depends on axioms: [propext, Classical.choice, Quot.sound]
'Over.c82_tidy' depends on axioms: [propext, Classical.choice, Quot.sound]
'Over.c82_tidy_display' depends on axioms: [propext, Classical.choice, Quot.sound]
'Over.c82_tidy_history' depends on axioms: [propext, Classical.choice, Quot.sound]
'Over.c82_written_lines' depends on axioms: [propext, Classical.choice, Quot.sound]
'Over.c83_accepted_iff' depends on axioms: [propext, Classical.choice, Quot.sound]
'Over.c83_get' depends on axioms: [propext, Quot.sound]
'Over.c83_project' depends on axioms: [propext, Classical.choice, Quot.sound]
'Over.c83_project_accepted_iff' depends on axioms: [propext, Classical.choice, Quot.sound]
'Over.c83_project_file' depends on axioms: [propext, Classical.choice, Quot.sound]
'Over.c83_project_file_accepted_iff' depends on axioms: [propext, Classical.choice, Quot.sound]
'Over.c83_reordered' depends on axioms: [propext, Classical.choice, Quot.sound]
'Over.c83_reordered_file' depends on axioms: [propext, Classical.choice, Quot.sound]
'Over.c84_object_file_or_list' depends on axioms: [propext, Classical.choice, Quot.sound]
'Over.c84_object_or_list' depends on axioms: [propext, Classical.choice, Quot.sound]
'Over.c85_any_order' depends on axioms: [propext, Classical.choice, Quot.sound]
'Over.c85_differences_regroup' depends on axioms: [propext, Classical.choice, Quot.sound]
'Over.c85_distribute' depends on axioms: [propext, Classical.choice, Quot.sound]
'Over.c85_products_commute' depends on axioms: [propext, Classical.choice, Quot.sound]
'Over.c85_products_regroup' depends on axioms: [propext, Classical.choice, Quot.sound]
'Over.c85_quotients_regroup' depends on axioms: [propext, Classical.choice, Quot.sound]
'Over.c85_subtract_adds' depends on axioms: [propext, Classical.choice, Quot.sound]
'Over.c85_sums_commute' depends on axioms: [propext, Classical.choice, Quot.sound]
'Over.c85_sums_regroup' depends on axioms: [propext, Classical.choice, Quot.sound]
'Over.c86_complete' depends on axioms: [propext, Classical.choice, Quot.sound]
'Over.c86_ill_typed' depends on axioms: [propext, Classical.choice, Quot.sound]
'Over.c86_one_type' depends on axioms: [propext, Quot.sound]
'Over.c86_sound' depends on axioms: [propext, Classical.choice, Quot.sound]
'Over.c86_types_only' depends on axioms: [propext, Classical.choice, Quot.sound]
'Over.c86_zero' depends on axioms: [propext, Classical.choice, Quot.sound]
'Over.c87_from_file' depends on axioms: [propext, Classical.choice, Quot.sound]
'Over.c87_from_str' depends on axioms: [propext, Classical.choice, Quot.sound]
'Over.c87_same_instance' depends on axioms: [propext, Classical.choice, Quot.sound]
'Over.c87_same_instance_file' depends on axioms: [propext, Classical.choice, Quot.sound]
'Over.c88_accepted' depends on axioms: [propext, Classical.choice, Quot.sound]
'Over.c88_exceptions' depends on axioms: [propext, Classical.choice, Quot.sound]
'Over.c88_from_file' depends on axioms: [propext, Classical.choice, Quot.sound]
'Over.c88_from_str' depends on axioms: [propext, Classical.choice, Quot.sound]
'Over.c88_project' depends on axioms: [propext, Classical.choice, Quot.sound]
'Over.c88_project_accepted' depends on axioms: [propext, Classical.choice, Quot.sound]
'Over.c88_project_file' depends on axioms: [propext, Classical.choice, Quot.sound]
'Over.c89_accepted' depends on axioms: [propext, Classical.choice, Quot.sound]
'Over.c89_from_file' depends on axioms: [propext, Classical.choice, Quot.sound]
'Over.c89_from_str' depends on axioms: [propext, Classical.choice, Quot.sound]
'Over.c89_one_definition' depends on axioms: [propext, Classical.choice, Quot.sound]
'Over.c89_project' depends on axioms: [propext, Classical.choice, Quot.sound]
'Over.c89_project_accepted' depends on axioms: [propext, Classical.choice, Quot.sound]
'Over.c89_project_file' depends on axioms: [propext, Classical.choice, Quot.sound]
'Over.c90_from_file' depends on axioms: [propext, Classical.choice, Quot.sound]
'Over.c90_from_str' depends on axioms: [propext, Classical.choice, Quot.sound]
'Over.c90_one_definition' depends on axioms: [propext, Classical.choice, Quot.sound]
'Over.c90_project' depends on axioms: [propext, Classical.choice, Quot.sound]
'Over.c90_project_file' depends on axioms: [propext, Classical.choice, Quot.sound]
'Over.c90_shown_same' depends on axioms: [propext, Classical.choice, Quot.sound]
