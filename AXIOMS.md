# Axioms of the manifest theorems

Written by `tools/axioms.py` from the output of `#print axioms`.

## propext, Classical.choice, Quot.sound (467)

`Verif.C01_iteration_sorted`, `Verif.C02_plain_sorted_list`, `Verif.C03_len_key`, `Verif.C03_len`, `Verif.C04_check_passes`, `Verif.C04_tables_agree`, `Verif.C05_contains`, `Verif.C06_add`, `Verif.C07_update`, `Verif.C08_discard`, `Verif.C09_remove`, `Verif.C10_getitem`, `Verif.C11_getslice`, `Verif.C12_delitem`, `Verif.C13_delslice`, `Verif.C14_pop`, `Verif.C15_bisect`, `Verif.C16_count`, `Verif.C17_index`, `Verif.C18_irange`, `Verif.C18_irange_empty`, `Verif.C19_islice`, `Verif.C21_compare`, `Verif.C22_concat_mul_copy`, `Verif.C23_dict_pickle`, `Verif.C23_pickle_key`, `Verif.C23_pickle`, `Verif.C23_set_pickle`, `Verif.C24_queries_pure_key`, `Verif.C24_queries_pure`, `Verif.C25_load_unobservable_key`, `Verif.C25_reset_key`, `Verif.C25_load_unobservable`, `Verif.C25_reset`, `Verif.C26_sublist_sizes_key`, `Verif.C26_sublist_sizes`, `Verif.C27_plain_list_sorted_by_key`, `Verif.C28_key_order_stable`, `Verif.C28_insertions_only`, `Verif.C29_equal_keys`, `Verif.C29_index`, `Verif.C30_bisect_key`, `Verif.C30_irange_key`, `Verif.C31_derived_lists_partial`, `Verif.C31_rmul_result`, `Verif.C32_check_passes`, `Verif.C32_cached_keys`, `Verif.C33_failing_add`, `Verif.C33_failing_add_key`, `Verif.C34_update_partial`, `Verif.C34_update_key_partial`, `Verif.C35_raising_call_key`, `Verif.C35_raising_call`, `Verif.C36_two_stores`, `Verif.C36_history`, `Verif.C37_add`, `Verif.C37_discard`, `Verif.C37_remove`, `Verif.C37_pop`, `Verif.C37_delitem`, `Verif.C37_delslice`, `Verif.C37_clear`, `Verif.C38_union`, `Verif.C38_intersection`, `Verif.C38_difference`, `Verif.C38_symmetric_difference`, `Verif.C38_copy`, `Verif.C38_new`, `Verif.C39_update`, `Verif.C39_difference_update`, `Verif.C39_intersection_update`, `Verif.C39_symmetric_difference_update`, `Verif.C40_comparisons`, `Verif.C40_predicates`, `Verif.C41_sequence`, `Verif.C41_key_searches`, `Verif.C42_operators_keep_key_partial`, `Verif.C42_rsub_result`, `Verif.C42_rsub_forgets_key`, `Verif.C43_add_not_atomic`, `Verif.C43_add_partial`, `Verif.C44_history`, `Verif.C44_two_stores`, `Verif.C44_reversed`, `Verif.C44_key_searches`, `Verif.C45_setitem`, `Verif.C45_delitem`, `Verif.C45_pop`, `Verif.C45_peekitem`, `Verif.C45_popitem`, `Verif.C45_setdefault`, `Verif.C45_clear`, `Verif.C46_update`, `Verif.C46_new`, `Verif.C46_strategy`, `Verif.C47_at`, `Verif.C47_slice`, `Verif.C47_delete_at`, `Verif.C47_delete_slice`, `Verif.C48_copy`, `Verif.C48_or`, `Verif.C48_ror`, `Verif.C48_fromkeys`, `Verif.C49_failing_setitem`, `Verif.C49_update_raising_iterable`, `Verif.C49_setdefault_partial`, `Verif.C49_update_partial`, `Verif.C51_binary_search`, `Verif.C51_contains`, `Verif.C51_add`, `Verif.C51_discard_remove`, `Verif.C51_bisect`, `Verif.C51_count_index`, `Verif.C51_irange`, `Verif.C51_getitem`, `Verif.C51_delitem_pop`, `Verif.C51_sublists`, `Verif.C51_key_add`, `Verif.C51_key_lookup`, `Verif.C51_key_index`, `Verif.C51_key_bisect`, `Verif.C51_key_irange`, `Verif.C51_key_positional`, `Verif.C52_positional`, `Verif.C52_positional_key`, `Verif.C52_add`, `Verif.C52_add_key`, `Verif.C52_discard_remove`, `Verif.C52_discard_remove_key`, `Verif.C52_bulk`, `Verif.C52_bulk_key`, `Verif.C52_queries`, `Verif.C52_queries_key`, `Verif.C52_sublist_sizes`, `Verif.C52_sublist_sizes_key`, `Verif.C53_set_check`, `Verif.C53_set_history`, `Verif.C53_dict_check`, `Verif.C53_dict_history`, `Verif.C54_keys_set`, `Verif.C54_items_set`, `Verif.C54_keys_compare`, `Verif.C54_items_compare`, `Verif.C54_keys_operators`, `Verif.C54_items_operators`, `Verif.C54_operands`, `Verif.C55_reversed`, `Verif.C55_index`, `Verif.C55_count`, `Verif.C56_equality`, `Verif.C56_sorted_dicts`, `Verif.C56_equal_items`, `Verif.C57_list`, `Verif.C57_key_list`, `Verif.C57_each_value_once`, `Verif.C57_each_value_once_key`, `Verif.C57_set`, `Verif.C58_dict`, `Verif.C59_no_sharing`, `Verif.C59_no_sharing_key`, `Verif.C59_only_the_target_changes`, `Verif.C59_only_the_target_changes_key`, `Verif.C60_no_sharing`, `Verif.C60_reduce_shares`, `Verif.C61_list_audit`, `Verif.C61_key_list_audit`, `Verif.C61_set_audit`, `Verif.C61_dict_audit`, `Verif.C61_check_misses_repetition`, `Verif.C62_list_without_key`, `Verif.C62_list_with_key`, `Verif.C62_key_list_none`, `Verif.C62_set`, `Verif.C62_dict`, `Verif.C62_update`, `Verif.C62_copy`, `Verif.C62_or`, `Verif.C62_ror`, `Verif.C62_fromkeys`, `Verif.C62_unpickle`, `Verif.C63_list_clear`, `Verif.C63_key_list_clear`, `Verif.C63_set_clear`, `Verif.C63_dict_clear`, `Verif.C64_set_in_step`, `Verif.C64_set_call`, `Verif.C64_set_operators`, `Verif.C64_dict_in_step`, `Verif.C64_dict_call`, `Verif.C64_dict_operators`, `Verif.C65_no_sharing`, `Verif.C65_only_the_target_changes`, `Verif.C66_sortedlist`, `Verif.C66_sortedlist_from_empty`, `Verif.C66_sortedlist_from_packed`, `Verif.C66_sortedlist_searches`, `Verif.C66_packed`, `Verif.C66_sortedkeylist`, `Verif.C66_sortedkeylist_from_empty`, `Verif.C66_sortedkeylist_from_packed`, `Verif.C66_sortedkeylist_searches`, `Verif.C66_amortised`, `Verif.C66_amortised_key`, `Verif.C67_dict`, `Verif.C67_dict_history`, `Verif.C67_dict_amortised`, `Verif.C67_set`, `Verif.C67_set_history`, `Verif.C67_set_amortised`, `Verif.C68_sortedlist`, `Verif.C68_sortedkeylist`, `Verif.C68_fill`, `Verif.C68_key_fill`, `Verif.C68_dict`, `Verif.C68_set_update`, `Verif.C68_set_difference_update`, `Verif.C68_set_rebuild`, `Verif.C69_list`, `Verif.C69_key_list`, `Verif.C69_ends`, `Verif.C69_ends_key`, `Verif.C69_as_promised`, `Verif.C69_as_promised_key`, `Verif.C69_each_value_once`, `Verif.C69_each_value_once_key`, `Verif.C70_list_uninterrupted`, `Verif.C70_list_aftermath`, `Verif.C70_list_add_sorted`, `Verif.C70_list_values`, `Verif.C70_list_clear`, `Verif.C70_list_reset`, `Verif.C70_key_list_uninterrupted`, `Verif.C70_key_list_aftermath`, `Verif.C70_key_list_add_sorted`, `Verif.C70_key_list_values`, `Verif.C70_key_list_clear`, `Verif.C70_key_list_reset`, `Verif.C71_list_alone`, `Verif.C71_list_plain`, `Verif.C71_list_warm`, `Verif.C71_list_indexed`, `Verif.C71_key_list_alone`, `Verif.C71_key_list_plain`, `Verif.C71_key_list_warm`, `Verif.C71_key_list_indexed`, `Verif.C72_set_uninterrupted`, `Verif.C72_set_aftermath`, `Verif.C72_set_progress`, `Verif.C72_set_members`, `Verif.C72_set_values`, `Verif.C72_set_clear`, `Verif.C72_set_repair`, `Verif.C72_dict_uninterrupted`, `Verif.C72_dict_aftermath`, `Verif.C72_dict_progress`, `Verif.C72_dict_members`, `Verif.C72_dict_values`, `Verif.C72_dict_clear`, `Verif.C72_dict_repair`, `Verif.C73_set_alone`, `Verif.C73_set_any`, `Verif.C73_set_plain`, `Verif.C73_set_warm`, `Verif.C73_set_indexed`, `Verif.C73_dict_alone`, `Verif.C73_dict_any`, `Verif.C73_dict_plain`, `Verif.C73_dict_warm`, `Verif.C73_dict_indexed`, `Verif.C74_total`, `Verif.C74_unique`, `Verif.C74_repr`, `Verif.C74_list`, `Verif.C74_keylist`, `Verif.C74_set`, `Verif.C74_keyset`, `Verif.C74_dict`, `Verif.C74_keydict`, `Verif.C75_set`, `Verif.C75_ends_set`, `Verif.C75_as_promised_set`, `Verif.C75_dict`, `Verif.C75_ends_dict`, `Verif.C75_as_promised_dict`, `Verif.C76_list_queried`, `Verif.C76_list_steadfast`, `Verif.C76_list_steadfast_queried`, `Verif.C76_key_list_queried`, `Verif.C76_key_list_steadfast`, `Verif.C76_key_list_steadfast_queried`, `Verif.C77_list`, `Verif.C77_list_found`, `Verif.C77_list_removed`, `Verif.C77_list_discarded`, `Verif.C77_list_complete`, `Verif.C77_list_consistent`, `Verif.C77_key_list`, `Verif.C77_key_list_found`, `Verif.C77_key_list_removed`, `Verif.C77_key_list_discarded`, `Verif.C77_key_list_indexed`, `Verif.C77_key_list_complete`, `Verif.C77_key_list_consistent`, `Verif.C77_stored_not_found`, `Verif.C78_set_two_stores`, `Verif.C78_set_add`, `Verif.C78_set_discard`, `Verif.C78_set_remove`, `Verif.C78_set_lost`, `Verif.C78_set_pop`, `Verif.C78_set_delitem`, `Verif.C78_set_update`, `Verif.C78_set_difference_update`, `Verif.C78_set_difference_update_many`, `Verif.C78_set_intersection_update`, `Verif.C78_set_symmetric_difference_update`, `Verif.C78_set_new`, `Verif.C78_set_operations`, `Verif.C78_dict_history`, `Verif.C78_dict_two_stores`, `Verif.C78_dict_delete_lost`, `Verif.C78_dict_pop_lost`, `Verif.C78_set_torn`, `Verif.C78_dict_torn`, `Verif.C79_list`, `Verif.C79_key_list`, `Verif.C79_key_list_stale`, `Verif.C79_key_list_stale_search`, `Verif.C79_list_resort`, `Verif.C79_key_list_resort`, `Verif.C79_set`, `Verif.C79_dict`, `Verif.C80_list`, `Verif.C80_key_list`, `Verif.C80_list_reads`, `Verif.C80_set`, `Verif.C80_dict`, `Verif.C80_dict_empty`, `Verif.C80_dict_empty_whole`, `Verif.C81_set`, `Verif.C81_set_history`, `Verif.C81_dict_empty`, `Verif.C81_dict_many`, `Verif.C81_dict_self`, `Verif.C81_dict_few`, `Verif.C82_list_alone`, `Verif.C82_list_values`, `Verif.C82_list_reset`, `Verif.C82_list_glances`, `Verif.C82_key_list_alone`, `Verif.C82_key_list_values`, `Verif.C82_key_list_reset`, `Verif.C82_key_list_glances`, `Verif.C83_set_linear`, `Verif.C83_set_glances`, `Verif.C83_dict_linear`, `Verif.C83_dict_glances`, `Verif.C84_set_alone`, `Verif.C84_set_own`, `Verif.C84_set_adds`, `Verif.C84_set_repair`, `Verif.C84_dict_alone`, `Verif.C84_dict_own`, `Verif.C84_dict_repair`, `Verif.C85_set_queried`, `Verif.C85_set_steadfast`, `Verif.C85_dict_queried`, `Verif.C85_dict_steadfast`, `Verif.C86_list`, `Verif.C86_set`, `Verif.C86_set_members`, `Verif.C86_set_new`, `Verif.C86_dict`, `Verif.C86_dict_equal`, `Verif.C87_list`, `Verif.C87_key_list`, `Verif.C87_set`, `Verif.C87_dict`, `Verif.C88_list`, `Verif.C88_key_list`, `Verif.C88_list_clear`, `Verif.C88_key_list_clear`, `Verif.C88_list_adds`, `Verif.C88_key_list_adds`, `Verif.C88_list_hangs`, `Verif.C89_list`, `Verif.C89_key_list`, `Verif.C89_list_answer`, `Verif.C89_key_list_answer`, `Verif.C89_list_ends`, `Verif.C89_key_list_ends`, `Verif.C89_list_later`, `Verif.C89_key_list_later`, `Verif.C89_list_alone`, `Verif.C89_key_list_alone`, `Verif.C90_set`, `Verif.C90_set_answer`, `Verif.C90_set_ends`, `Verif.C90_set_later`, `Verif.C90_set_alone`, `Verif.C90_dict`, `Verif.C90_dict_answer`, `Verif.C90_dict_ends`, `Verif.C90_dict_later`, `Verif.C90_dict_alone`, `Verif.C91_set_hangs`, `Verif.C91_dict_hangs`, `Verif.C91_set`, `Verif.C91_set_values`, `Verif.C91_set_repair`, `Verif.C91_set_clear`, `Verif.C91_dict`, `Verif.C91_dict_values`, `Verif.C91_dict_repair`, `Verif.C91_dict_clear`, `Verif.C91_set_adds`, `Verif.C91_dict_adds`, `Verif.C91_set_twice`, `Verif.C91_set_discard`, `Verif.C91_set_slice`, `Verif.C91_set_reset`, `Verif.C91_set_wild_repair`, `Verif.C91_dict_wild_repair`, `Verif.C91_key_set_wild_repair`, `Verif.C91_key_dict_wild_repair`, `Verif.C92_one_live_view`, `Verif.C92_warns_at_first`, `Verif.C93_list`, `Verif.C93_key_list`, `Verif.C93_set`, `Verif.C93_dict`, `Verif.C93_list_add`, `Verif.C93_key_list_add`, `Verif.C93_dict_setitem`, `Verif.C93_list_values`, `Verif.C93_key_list_values`, `Verif.C93_set_values`, `Verif.C93_dict_values`, `Verif.C93_list_clear`, `Verif.C93_key_list_clear`, `Verif.C93_list_adds`, `Verif.C93_key_list_adds`, `Verif.C93_set_adds`, `Verif.C93_dict_adds`, `Verif.C93_set_add_trace`, `Verif.C93_list_queries`, `Verif.C93_key_list_queries`, `Verif.C93_set_queries`, `Verif.C93_dict_queries`, `Verif.C93_list_reads`, `Verif.C93_key_list_reads`, `Verif.C93_list_update`, `Verif.C93_key_list_update`, `Verif.C93_set_only_reads`, `Verif.C93_dict_only_reads`, `Verif.C93_set_bisect`, `Verif.C93_dict_bisect`, `Verif.C93_list_remove`, `Verif.C93_key_list_remove`, `Verif.C93_list_bisect`, `Verif.C93_key_list_bisect`, `Verif.C93_dict_pop`, `Verif.C93_set_remove_trace`, `Verif.C93_set_wild_repair`, `Verif.C93_dict_wild_repair`, `Verif.C93_key_set_wild_repair`, `Verif.C93_key_dict_wild_repair`

## propext, Quot.sound (36)

`Verif.C31_rmul_forgets_key`, `Verif.C34_update_not_atomic`, `Verif.C34_update_key_not_atomic`, `Verif.C49_setdefault_not_atomic`, `Verif.C49_update_not_atomic`, `Verif.C54_isdisjoint`, `Verif.C60_only_the_target_changes`, `Verif.C61_check_misses_index_shape`, `Verif.C62_key_list_default`, `Verif.C62_subclass_key`, `Verif.C65_views_are_live`, `Verif.C67_dict_by_hash`, `Verif.C67_set_by_hash`, `Verif.C69_stopped`, `Verif.C69_stopped_key`, `Verif.C70_list_query`, `Verif.C70_key_list_query`, `Verif.C72_set_query`, `Verif.C72_dict_query`, `Verif.C74_others`, `Verif.C74_error`, `Verif.C75_stopped_set`, `Verif.C75_stopped_dict`, `Verif.C76_rebuilding_shows`, `Verif.C80_dict_empty_differs`, `Verif.C80_dict_empty_torn`, `Verif.C81_list`, `Verif.C81_list_key`, `Verif.C84_list_raises`, `Verif.C88_list_loses`, `Verif.C88_list_doubles`, `Verif.C88_list_compares`, `Verif.C91_dict_setdefault`, `Verif.C93_dict_setdefault_trace`, `Verif.C93_list_update_trace`, `Verif.C93_dict_delitem_trace`

## no axioms (3)

`Verif.C44_getitem`, `Verif.C50_unsupported_key`, `Verif.C50_unsupported`

## propext (1)

`Verif.C20_reversed`
