# Axioms per theorem

Collected from the compiled modules. `lean/Verif/Audit.lean` makes the build fail when any
theorem uses another axiom. The names are in the namespace `XmlDom.Props`.

## none (8 theorems)

`C19_full_false`, `C52_no_namespace`, `C60_default`, `C60_new_no_encoding`, `C72_full_false`, `C79_full_false`, `C80_only_prefix`, `C86_fixed_names`

## propext (42 theorems)

`C13_attribute`, `C13_first_last`, `C16_substring_zero`, `C17_node_failed`, `C18_append`, `C18_node_append`, `C27_full_false`, `C29_empty_namespace`, `C30_full_false`, `C33_append`, `C33_decode`, `C33_injective`, `C34_clean`, `C34_idempotent`, `C34_keeps_text`, `C34_spec`, `C35_full_false`, `C35_full_false_percent`, `C35_trim`, `C60_display`, `C60_display_injective`, `C60_version`, `C69_independent`, `C69_set`, `C69_unset`, `C71_has_feature`, `C71_is_supported`, `C76_accepts`, `C76_as`, `C76_exactly_one`, `C78_errors`, `C78_node_types`, `C79_value_partial`, `C80_full_false`, `C82_data`, `C85_full_false`, `C86_classes`, `C86_for_namespace`, `C86_injective`, `C89_unset`, `C98_copies`, `C98_unset`

## Quot.sound, propext (112 theorems)

`C01_full_false`, `C04_full_false`, `C06_full_false`, `C07_clone_false`, `C07_full_false`, `C07_unset_false`, `C08_full_false`, `C08_twice_false`, `C09_full_false`, `C09_self_false`, `C101_binary`, `C101_injective`, `C102_full_false`, `C103_full_false`, `C104_full_false`, `C105_full_false`, `C106_outcomes`, `C107_full_false`, `C107_id`, `C108_document`, `C108_element`, `C108_exclusive`, `C108_node`, `C108_readers`, `C12_attribute_refused`, `C12_full_false`, `C13_inverse`, `C13_siblings`, `C13_siblings_by_index`, `C16_node`, `C16_substring_only`, `C16_substring_past_end`, `C16_substring_range`, `C17_node`, `C17_replace_none`, `C17_replace_past_end`, `C17_replace_range`, `C18_delete`, `C18_delete_insert`, `C18_delete_past_end`, `C18_insert`, `C18_node_delete`, `C18_node_insert`, `C18_substring_insert`, `C20_none_returns`, `C20_overflow`, `C21_accepts_partial`, `C21_full_false`, `C21_length`, `C23_full_false`, `C23_orphan`, `C29_new_ns_ok`, `C32_attribute_value`, `C32_data`, `C32_escape`, `C33_identity`, `C34_no_growth`, `C35_normalize_partial`, `C36_children`, `C36_full_false`, `C36_read_partial`, `C37_full_false`, `C38_full_false`, `C40_has_attribute`, `C40_ns_full_false`, `C41_full_false`, `C42_full_false`, `C43_full_false`, `C43_ns_full_false`, `C45_document_false`, `C45_full_false`, `C47_full_false`, `C47_own_mapping`, `C48_contains_mapped`, `C48_get_prefix`, `C49_full_false`, `C49_ns_full_false`, `C50_queries`, `C52_full_false`, `C53_full_false`, `C56_attributes_shared`, `C56_full_false`, `C57_display`, `C57_full_false`, `C59_full_false`, `C61_combine`, `C61_commute`, `C61_hasNone`, `C61_idempotent`, `C61_new`, `C61_setters`, `C64_full_false`, `C65_full_false`, `C67_accepts`, `C67_failure`, `C70_dropped`, `C77_children`, `C77_full_false`, `C83_display`, `C83_injective`, `C84_full_false`, `C86_prefix_kinds`, `C88_unique`, `C89_full_false`, `C93_full_false`, `C94_full_false`, `C95_twice`, `C97_full_false`, `C98_data_partial`, `C98_full_false`, `C99_full_false`, `C99_normalize_partial`

## Classical.choice, Quot.sound, propext (227 theorems)

`C01_earlier_sibling`, `C01_insert_before_itself`, `C01_insert_last`, `C01_insert_partial`, `C01_unlinked`, `C02_append_child`, `C02_insert_before`, `C03_not_a_child`, `C03_remove_child`, `C03_remove_child_cases`, `C04_earlier_sibling`, `C04_replace_itself`, `C04_replace_partial`, `C04_unlinked`, `C05_append_child`, `C05_insert_before`, `C05_remove_child`, `C06_replace_partial`, `C07_down_partial`, `C07_links_partial`, `C08_once_partial`, `C09_acyclic_partial`, `C09_never_own_child`, `C09_own_child`, `C100_accepts`, `C100_encoded`, `C100_invalid`, `C102_content_partial`, `C102_same`, `C103_document_partial`, `C103_public`, `C103_same`, `C104_document_type`, `C104_entity`, `C104_notation`, `C105_reread_partial`, `C105_same`, `C106_call`, `C106_history`, `C107_partial`, `C107_self`, `C109_outcome`, `C109_reader`, `C109_shape`, `C10_child_types`, `C11_one_element`, `C11_unique`, `C12_append_refused`, `C12_document_partial`, `C12_insert_refused`, `C12_same_document`, `C14_append_child`, `C14_dropped_document`, `C14_dropped_document_root`, `C14_insert_before`, `C14_insert_into_itself`, `C14_insert_into_itself_refused`, `C14_remove_child`, `C14_replace_child`, `C15_owner_fixed`, `C17_replace_only`, `C19_index_size_partial`, `C20_insert_delete_panics_iff`, `C20_replace_panics_iff`, `C20_substring_panics_iff`, `C21_excess`, `C22_full_false`, `C22_refused`, `C22_returns_partial`, `C22_split`, `C23_comment`, `C23_unchanged_partial`, `C24_normalize`, `C24_sequences`, `C24_tidy`, `C25_fixed`, `C25_idempotent`, `C26_direct_partial`, `C26_exact`, `C26_full_false`, `C27_accepts_partial`, `C27_only_qnames`, `C27_panics_iff`, `C27_verdict`, `C28_display_fromStr`, `C28_fromStr_display`, `C28_injective`, `C29_namespace_error`, `C30_other_error`, `C30_syntax_partial`, `C31_fixed_names`, `C31_names`, `C36_entity_reference_panics`, `C36_exact`, `C37_ns_partial`, `C37_set_get_partial`, `C38_other_elements`, `C38_other_names_partial`, `C39_full_false`, `C39_remove_partial`, `C39_removes_one`, `C40_ns_partial`, `C41_failed_set_partial`, `C42_entries_partial`, `C42_owner_partial`, `C43_iff`, `C43_lookup_partial`, `C44_id_stays`, `C45_document_partial`, `C45_element_partial`, `C45_origin_partial`, `C46_set_attribute`, `C46_set_attribute_node`, `C47_exact`, `C47_nearest_partial`, `C47_terminates`, `C48_exact`, `C48_resolve_prefix`, `C49_default_partial`, `C49_default_plain_partial`, `C49_prefixed`, `C50_declarations`, `C51_elements`, `C51_terminates`, `C52_elements_partial`, `C52_exact`, `C53_document_partial`, `C53_exact`, `C54_shallow`, `C55_copies`, `C55_terminates`, `C56_independent_partial`, `C57_exact`, `C57_finite`, `C57_outcome`, `C57_terminates_partial`, `C58_no_markup`, `C59_round_trip_partial`, `C60_new_encoding`, `C62_builds_partial`, `C62_full_false`, `C63_document`, `C63_others_unchanged`, `C64_exact`, `C64_inside_swallowed`, `C64_top_partial`, `C65_bad_name_panics`, `C65_exact`, `C65_returns_partial`, `C66_ok`, `C66_outcome`, `C66_untouched`, `C67_attribute`, `C67_attribute_with`, `C67_cdata`, `C67_comment`, `C67_element`, `C67_element_ns`, `C67_entity_reference`, `C67_fragment`, `C67_processing_instruction`, `C67_text`, `C68_type_and_name`, `C70_gone`, `C70_no_dangling`, `C72_classes_partial`, `C72_name`, `C72_names`, `C72_nmtoken`, `C72_nmtokens`, `C72_restricted`, `C73_alive`, `C73_footprint`, `C74_attribute`, `C74_element`, `C74_element_ns`, `C74_target`, `C75_document_type`, `C75_elsewhere`, `C75_entity`, `C75_never_resolved`, `C75_notation`, `C76_calls`, `C76_stays`, `C77_attributes`, `C77_owner_partial`, `C80_exact`, `C80_set_prefix_partial`, `C81_insert`, `C81_no_effect`, `C81_remove`, `C84_at_most_one`, `C84_first_partial`, `C85_bmp_partial`, `C85_exact`, `C87_insert_remove`, `C87_remove_insert`, `C87_replace_replace`, `C88_split_normalize`, `C89_exact`, `C89_last_counts`, `C89_set_value_partial`, `C90_display`, `C90_tidy`, `C91_display`, `C91_shallow`, `C92_document_partial`, `C92_full_false`, `C92_read_back_partial`, `C92_written_partial`, `C93_insert_exact`, `C93_insert_partial`, `C93_replace_exact`, `C93_replace_partial`, `C94_remove_partial`, `C94_set_exact`, `C94_set_named_exact`, `C94_set_ns_partial`, `C94_set_partial`, `C95_full_false`, `C95_members_partial`, `C95_once_partial`, `C96_full_false`, `C96_one_root`, `C96_up_down_partial`, `C97_call_partial`, `C97_history_partial`
