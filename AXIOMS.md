# Axioms of the claimed theorems

Output of `#print axioms`.

```
'Xecs.C01_read' depends on axioms: [propext, Classical.choice, Quot.sound]
'Xecs.C01_frame' depends on axioms: [propext, Classical.choice, Quot.sound]
'Xecs.C01_effect' depends on axioms: [propext, Classical.choice, Quot.sound]
'Xecs.C02_listing' depends on axioms: [propext, Classical.choice, Quot.sound]
'Xecs.C02_unregistered' depends on axioms: [propext, Classical.choice, Quot.sound]
'Xecs.C03_detach_partial' depends on axioms: [propext, Classical.choice, Quot.sound]
'Xecs.C03_exact' depends on axioms: [propext, Classical.choice, Quot.sound]
'Xecs.C03_returns' depends on axioms: [propext, Classical.choice, Quot.sound]
'Xecs.C03_detach_absent_counterexample' depends on axioms: [propext, Quot.sound]
'Xecs.C04_overwrite' depends on axioms: [propext, Classical.choice, Quot.sound]
'Xecs.C04_count' depends on axioms: [propext, Classical.choice, Quot.sound]
'Xecs.C04_order_counterexample' depends on axioms: [propext, Quot.sound]
'Xecs.C05_batch' depends on axioms: [propext, Classical.choice, Quot.sound]
'Xecs.C05_create' depends on axioms: [propext, Classical.choice, Quot.sound]
'Xecs.C06_make_group' depends on axioms: [propext, Classical.choice, Quot.sound]
'Xecs.C06_swap' depends on axioms: [propext, Classical.choice, Quot.sound]
'Xecs.C07_unique' depends on axioms: [propext, Classical.choice, Quot.sound]
'Xecs.C07_batch' depends on axioms: [propext, Classical.choice, Quot.sound]
'Xecs.C08_order' depends on axioms: [propext, Classical.choice, Quot.sound]
'Xecs.C08_recyclable' depends on axioms: [propext, Classical.choice, Quot.sound]
'Xecs.C09_block' depends on axioms: [propext, Classical.choice, Quot.sound]
'Xecs.C10_exist_partial' depends on axioms: [propext, Classical.choice, Quot.sound]
'Xecs.C10_liveness_partial' depends on axioms: [propext, Classical.choice, Quot.sound]
'Xecs.C10_zombie_counterexample' depends on axioms: [propext, Quot.sound]
'Xecs.C10_unallocated_counterexample' depends on axioms: [propext, Quot.sound]
'Xecs.C11_dead_partial' depends on axioms: [propext, Classical.choice, Quot.sound]
'Xecs.C11_excepted' depends on axioms: [propext, Classical.choice, Quot.sound]
'Xecs.C11_zombie_counterexample' depends on axioms: [propext, Quot.sound]
'Xecs.C11_twice_counterexample' depends on axioms: [propext, Quot.sound]
'Xecs.C12_new' depends on axioms: [propext, Classical.choice, Quot.sound]
'Xecs.C12_batch' depends on axioms: [propext, Classical.choice, Quot.sound]
'Xecs.C13_remove' depends on axioms: [propext, Classical.choice, Quot.sound]
'Xecs.C13_manual' depends on axioms: [propext, Classical.choice, Quot.sound]
'Xecs.C13_order' depends on axioms: [propext, Quot.sound]
'Xecs.C14_after' depends on axioms: [propext, Classical.choice, Quot.sound]
'Xecs.C14_full' depends on axioms: [propext, Classical.choice, Quot.sound]
'Xecs.C14_part' depends on axioms: [propext, Classical.choice, Quot.sound]
'Xecs.C14_succeeds' depends on axioms: [propext, Classical.choice, Quot.sound]
'Xecs.C15_full' depends on axioms: [propext, Classical.choice, Quot.sound]
'Xecs.C15_sound' depends on axioms: [propext, Classical.choice, Quot.sound]
'Xecs.C16_part' depends on axioms: [propext, Classical.choice, Quot.sound]
'Xecs.C16_sound' depends on axioms: [propext, Classical.choice, Quot.sound]
'Xecs.C17_non_partial' depends on axioms: [propext, Classical.choice, Quot.sound]
'Xecs.C17_unchecked_counterexample' depends on axioms: [propext, Quot.sound]
'Xecs.C17_wrong_value_counterexample' depends on axioms: [propext, Quot.sound]
'Xecs.C17_owning_counterexample' depends on axioms: [propext, Quot.sound]
'Xecs.C18_after' depends on axioms: [propext, Classical.choice, Quot.sound]
'Xecs.C18_exclusive' depends on axioms: [propext, Classical.choice, Quot.sound]
'Xecs.C18_conflict' depends on axioms: [propext, Quot.sound]
'Xecs.C18_exactly' depends on axioms: [propext, Classical.choice, Quot.sound]
'Xecs.C19_atomic_partial' depends on axioms: [propext, Classical.choice, Quot.sound]
'Xecs.C19_registered' depends on axioms: [propext, Classical.choice, Quot.sound]
'Xecs.C19_exact' depends on axioms: [propext, Classical.choice, Quot.sound]
'Xecs.C19_left_behind_counterexample' depends on axioms: [propext, Quot.sound]
'Xecs.C20_after' depends on axioms: [propext, Classical.choice, Quot.sound]
'Xecs.C20_exact' depends on axioms: [propext, Classical.choice, Quot.sound]
'Xecs.C20_reattach_partial' depends on axioms: [propext, Classical.choice, Quot.sound]
'Xecs.C20_before' depends on axioms: [propext, Classical.choice, Quot.sound]
'Xecs.C20_bypass_counterexample' depends on axioms: [propext, Quot.sound]
'Xecs.C21_overlap' depends on axioms: [propext, Classical.choice, Quot.sound]
'Xecs.C21_groups_partial' depends on axioms: [propext, Classical.choice, Quot.sound]
'Xecs.C21_overlap_counterexample' depends on axioms: [propext, Quot.sound]
'Xecs.C21_stale_counterexample' depends on axioms: [propext, Quot.sound]
'Xecs.C22_nested' depends on axioms: [propext, Classical.choice, Quot.sound]
'Xecs.C22_agree' depends on axioms: [propext, Classical.choice, Quot.sound]
'Xecs.C23_meaning' depends on axioms: [propext, Classical.choice, Quot.sound]
'Xecs.C23_pair' depends on axioms: [propext, Classical.choice, Quot.sound]
'Xecs.C23_triple' depends on axioms: [propext, Classical.choice, Quot.sound]
'Xecs.C23_quadruple' depends on axioms: [propext, Classical.choice, Quot.sound]
'Xecs.C23_quintuple' depends on axioms: [propext, Classical.choice, Quot.sound]
'Xecs.C24_right' depends on axioms: [propext, Classical.choice, Quot.sound]
'Xecs.C24_left' depends on axioms: [propext, Classical.choice, Quot.sound]
'Xecs.C25_from_id' depends on axioms: [propext, Classical.choice, Quot.sound]
'Xecs.C25_unique' depends on axioms: [propext, Classical.choice, Quot.sound]
'Xecs.C26_mixed' depends on axioms: [propext, Classical.choice, Quot.sound]
'Xecs.C26_same' depends on axioms: [propext, Classical.choice, Quot.sound]
'Xecs.C27_exact' depends on axioms: [propext, Classical.choice, Quot.sound]
'Xecs.C27_sound' depends on axioms: [propext, Classical.choice, Quot.sound]
'Xecs.C27_ends' depends on axioms: [propext, Classical.choice, Quot.sound]
'Xecs.C28_items' depends on axioms: [propext, Classical.choice, Quot.sound]
'Xecs.C28_iteration_partial' depends on axioms: [propext, Classical.choice, Quot.sound]
'Xecs.C28_exact' depends on axioms: [propext, Classical.choice, Quot.sound]
'Xecs.C28_from_id_counterexample' depends on axioms: [propext, Quot.sound]
'Xecs.C28_outlive_counterexample' depends on axioms: [propext, Quot.sound]
'Xecs.C29_update' depends on axioms: [propext, Classical.choice, Quot.sound]
'Xecs.C29_map' depends on axioms: [propext, Classical.choice, Quot.sound]
'Xecs.C29_map2' depends on axioms: [propext, Classical.choice, Quot.sound]
'Xecs.C29_write' depends on axioms: [propext, Classical.choice, Quot.sound]
'Xecs.C29_data' depends on axioms: [propext, Classical.choice, Quot.sound]
'Xecs.C30_read' depends on axioms: [propext, Classical.choice, Quot.sound]
'Xecs.C30_update' depends on axioms: [propext, Classical.choice, Quot.sound]
'Xecs.C30_frame' depends on axioms: [propext, Classical.choice, Quot.sound]
'Xecs.C31_downcast' depends on axioms: [propext, Classical.choice, Quot.sound]
'Xecs.C31_no_ub' depends on axioms: [propext, Classical.choice, Quot.sound]
'Xecs.C32_twice' depends on axioms: [propext, Classical.choice, Quot.sound]
'Xecs.C32_once' depends on axioms: [propext, Classical.choice, Quot.sound]
'Xecs.C32_forever' depends on axioms: [propext, Classical.choice, Quot.sound]
'Xecs.C33_after' depends on axioms: [propext, Classical.choice, Quot.sound]
'Xecs.C33_unregistered' depends on axioms: [propext, Quot.sound]
'Xecs.C33_length' depends on axioms: [propext, Quot.sound]
'Xecs.C33_dead' depends on axioms: [propext, Classical.choice, Quot.sound]
'Xecs.C33_query' depends on axioms: [propext, Classical.choice, Quot.sound]
'Xecs.C33_intact' depends on axioms: [propext, Classical.choice, Quot.sound]
'Xecs.C34_after' depends on axioms: [propext, Classical.choice, Quot.sound]
'Xecs.C34_exactly' depends on axioms: [propext, Classical.choice, Quot.sound]
'Xecs.C34_disciplined' depends on axioms: [propext, Classical.choice, Quot.sound]
'Xecs.C34_iteration' depends on axioms: [propext, Classical.choice, Quot.sound]
'Xecs.C35_exclusion' depends on axioms: [propext, Quot.sound]
'Xecs.C35_guarded' depends on axioms: [propext, Classical.choice, Quot.sound]
'Xecs.C35_no_race' depends on axioms: [propext, Classical.choice, Quot.sound]
'Xecs.C35_footprint' depends on axioms: [propext, Classical.choice, Quot.sound]
'Xecs.C35_commute' depends on axioms: [propext, Classical.choice, Quot.sound]
'Xecs.C35_released' depends on axioms: [propext, Classical.choice, Quot.sound]
'Xecs.C36_handle_protects' depends on axioms: [propext, Classical.choice, Quot.sound]
'Xecs.C36_attach_alive' depends on axioms: [propext, Classical.choice, Quot.sound]
'Xecs.C37_distinct' depends on axioms: [propext, Classical.choice, Quot.sound]
'Xecs.C37_succeeds' depends on axioms: [propext, Classical.choice, Quot.sound]
'Xecs.C38_sound' depends on axioms: [propext, Classical.choice, Quot.sound]
'Xecs.C38_complete' depends on axioms: [propext, Classical.choice, Quot.sound]
'Xecs.C38_returns' depends on axioms: [propext, Classical.choice, Quot.sound]
'Xecs.C39_sound_partial' depends on axioms: [propext, Classical.choice, Quot.sound]
'Xecs.C39_complete_partial' depends on axioms: [propext, Classical.choice, Quot.sound]
'Xecs.C39_plain_partial' depends on axioms: [propext, Classical.choice, Quot.sound]
'Xecs.C39_detach_attach_counterexample' depends on axioms: [propext, Quot.sound]
'Xecs.C40_divided_partial' depends on axioms: [propext, Classical.choice, Quot.sound]
'Xecs.C40_divided_drains_partial' depends on axioms: [propext, Classical.choice, Quot.sound]
'Xecs.C40_updating_divided' depends on axioms: [propext, Quot.sound]
'Xecs.C40_sharp_attach' depends on axioms: [propext, Classical.choice, Quot.sound]
'Xecs.C40_sharp_detach' depends on axioms: [propext, Classical.choice, Quot.sound]
'Xecs.C40_sharp_writer' depends on axioms: [propext, Classical.choice, Quot.sound]
'Xecs.C40_sharp_queries' depends on axioms: [propext, Quot.sound]
'Xecs.C40_updating_partial' depends on axioms: [propext, Classical.choice, Quot.sound]
'Xecs.C40_scanning_partial' depends on axioms: [propext, Classical.choice, Quot.sound]
'Xecs.C40_progress' depends on axioms: [propext, Classical.choice, Quot.sound]
'Xecs.C40_finite' depends on axioms: [propext, Quot.sound]
'Xecs.C40_drains_partial' depends on axioms: [propext, Classical.choice, Quot.sound]
'Xecs.C40_query_attach_counterexample' depends on axioms: [propext, Classical.choice, Quot.sound]
'Xecs.C40_queries_counterexample' depends on axioms: [propext, Classical.choice, Quot.sound]
'Xecs.C40_remove_attach_counterexample' depends on axioms: [propext, Classical.choice, Quot.sound]
'Xecs.C40_read_twice_counterexample' depends on axioms: [propext, Classical.choice, Quot.sound]
'Xecs.C40_self_counterexample' depends on axioms: [propext, Classical.choice, Quot.sound]
'Xecs.C41_conflict' depends on axioms: [propext, Quot.sound]
'Xecs.C41_succeeds' depends on axioms: [propext, Classical.choice, Quot.sound]
'Xecs.C41_guards' depends on axioms: [propext, Quot.sound]
'Xecs.C42_listing' depends on axioms: [propext, Classical.choice, Quot.sound]
'Xecs.C42_count' depends on axioms: [propext, Classical.choice, Quot.sound]
'Xecs.C43_reads_partial' depends on axioms: [propext, Classical.choice, Quot.sound]
'Xecs.C43_listing' depends on axioms: [propext, Classical.choice, Quot.sound]
'Xecs.C43_resurrected_counterexample' depends on axioms: [propext, Quot.sound]
'Xecs.C43_duplicate_counterexample' depends on axioms: [propext, Quot.sound]
'Xecs.C44_no_block' depends on axioms: [propext, Classical.choice, Quot.sound]
'Xecs.C44_query' depends on axioms: [propext, Classical.choice, Quot.sound]
'Xecs.C44_storage' depends on axioms: [propext]
'Xecs.C44_calls' depends on axioms: [propext, Classical.choice, Quot.sound]
'Xecs.C44_self_group_counterexample' depends on axioms: [propext, Quot.sound]
'Xecs.C45_alone' depends on axioms: [propext, Classical.choice, Quot.sound]
'Xecs.C46_kept' depends on axioms: [propext, Classical.choice, Quot.sound]
'Xecs.C46_create' depends on axioms: [propext, Classical.choice, Quot.sound]
'Xecs.C46_remove' depends on axioms: [propext, Classical.choice, Quot.sound]
'Xecs.C47_ends' depends on axioms: [propext, Classical.choice, Quot.sound]
'Xecs.C47_collect' depends on axioms: [propext, Classical.choice, Quot.sound]
'Xecs.C48_atomic' depends on axioms: [propext, Classical.choice, Quot.sound]
'Xecs.C48_history' depends on axioms: [propext, Classical.choice, Quot.sound]
'Xecs.C49_atomic' depends on axioms: [propext, Classical.choice, Quot.sound]
'Xecs.C49_removal_counterexample' depends on axioms: [propext, Classical.choice, Quot.sound]
'Xecs.C50_components' depends on axioms: [propext, Classical.choice, Quot.sound]
'Xecs.C50_entities' depends on axioms: [propext, Classical.choice, Quot.sound]
'Xecs.C50_resources' depends on axioms: [propext, Classical.choice, Quot.sound]
'Xecs.C50_goes_on' depends on axioms: [propext, Classical.choice, Quot.sound]
'Xecs.C50_damage_counterexample' depends on axioms: [propext, Quot.sound]
'Xecs.C51_exclusion' depends on axioms: [propext, Classical.choice, Quot.sound]
'Xecs.C51_guarded' depends on axioms: [propext, Classical.choice, Quot.sound]
'Xecs.C51_no_race' depends on axioms: [propext, Classical.choice, Quot.sound]
'Xecs.C51_held' depends on axioms: [propext, Classical.choice, Quot.sound]
'Xecs.C51_gives' depends on axioms: [propext, Quot.sound]
'Xecs.C51_lasts' depends on axioms: [propext, Classical.choice, Quot.sound]
'Xecs.C51_handle' depends on axioms: [propext, Classical.choice, Quot.sound]
'Xecs.C51_handle_protects' depends on axioms: [propext, Classical.choice, Quot.sound]
'Xecs.C51_read_storage' depends on axioms: [propext, Classical.choice, Quot.sound]
'Xecs.C51_read_resource' depends on axioms: [propext, Classical.choice, Quot.sound]
'Xecs.C51_view' depends on axioms: [propext, Classical.choice, Quot.sound]
'Xecs.C51_write_storage' depends on axioms: [propext, Classical.choice, Quot.sound]
'Xecs.C51_write_resource' depends on axioms: [propext, Classical.choice, Quot.sound]
'Xecs.C51_write_presence' depends on axioms: [propext, Classical.choice, Quot.sound]
'Xecs.C51_range_counterexample' depends on axioms: [propext, Classical.choice, Quot.sound]
'Xecs.C52_atomic' depends on axioms: [propext, Classical.choice, Quot.sound]
'Xecs.C52_considerate' depends on axioms: [propext, Classical.choice, Quot.sound]
'Xecs.C52_history' depends on axioms: [propext, Classical.choice, Quot.sound]
'Xecs.C52_distinct' depends on axioms: [propext, Classical.choice, Quot.sound]
'Xecs.C52_sound' depends on axioms: [propext, Classical.choice, Quot.sound]
'Xecs.C52_complete' depends on axioms: [propext, Classical.choice, Quot.sound]
'Xecs.C52_disciplined_complete' depends on axioms: [propext, Classical.choice, Quot.sound]
'Xecs.C52_returns' depends on axioms: [propext, Classical.choice, Quot.sound]
'Xecs.C53_forever' depends on axioms: [propext, Quot.sound]
'Xecs.C53_self' depends on axioms: [propext, Classical.choice, Quot.sound]
'Xecs.C54_sequential' depends on axioms: [propext, Classical.choice, Quot.sound]
'Xecs.C54_account' depends on axioms: [propext, Classical.choice, Quot.sound]
'Xecs.C54_state' depends on axioms: [propext, Classical.choice, Quot.sound]
'Xecs.C54_queries' depends on axioms: [propext, Classical.choice, Quot.sound]
'Xecs.C54_during' depends on axioms: [propext, Classical.choice, Quot.sound]
'Xecs.C54_keeping' depends on axioms: [propext, Classical.choice, Quot.sound]
'Xecs.C54_keeping_during' depends on axioms: [propext, Classical.choice, Quot.sound]
'Xecs.C55_read' depends on axioms: [propext, Classical.choice, Quot.sound]
'Xecs.C55_write' depends on axioms: [propext, Classical.choice, Quot.sound]
'Xecs.C55_outside' depends on axioms: [propext, Classical.choice, Quot.sound]
'Xecs.C56_wild_partial' depends on axioms: [propext, Classical.choice, Quot.sound]
'Xecs.C56_calls_partial' depends on axioms: [propext, Classical.choice, Quot.sound]
'Xecs.C56_queries_partial' depends on axioms: [propext, Classical.choice, Quot.sound]
'Xecs.C56_shared_partial' depends on axioms: [propext, Classical.choice, Quot.sound]
'Xecs.C56_considerate_partial' depends on axioms: [propext, Classical.choice, Quot.sound]
'Xecs.C56_keeping_partial' depends on axioms: [propext, Classical.choice, Quot.sound]
'Xecs.C56_rebatch_counterexample' depends on axioms: [propext, Quot.sound]
'Xecs.C56_overlap_counterexample' depends on axioms: [propext, Quot.sound]
'Xecs.C56_race_counterexample' depends on axioms: [propext, Quot.sound]
'Xecs.C57_once_partial' depends on axioms: [propext, Classical.choice, Quot.sound]
'Xecs.C57_gone_partial' depends on axioms: [propext, Classical.choice, Quot.sound]
'Xecs.C57_new_partial' depends on axioms: [propext, Classical.choice, Quot.sound]
'Xecs.C57_once_counterexample' depends on axioms: [propext, Quot.sound]
'Xecs.C57_leftover_counterexample' depends on axioms: [propext, Quot.sound]
'Xecs.C58_returns_partial' depends on axioms: [propext, Classical.choice, Quot.sound]
'Xecs.C58_detach_counterexample' depends on axioms: [propext, Classical.choice, Quot.sound]
'Xecs.C58_query_counterexample' depends on axioms: [propext, Classical.choice, Quot.sound]
'Xecs.C58_keeping_partial' depends on axioms: [propext, Classical.choice, Quot.sound]
'Xecs.C59_keeping' depends on axioms: [propext, Classical.choice, Quot.sound]
'Xecs.C59_held' depends on axioms: [propext, Classical.choice, Quot.sound]
'Xecs.C59_call' depends on axioms: [propext, Classical.choice, Quot.sound]
'Xecs.C59_exact' depends on axioms: [propext, Classical.choice, Quot.sound]
'Xecs.C59_removal' depends on axioms: [propext, Classical.choice, Quot.sound]
'Xecs.C59_balance' depends on axioms: [propext, Classical.choice, Quot.sound]
'Xecs.C59_calls' depends on axioms: [propext, Classical.choice, Quot.sound]
'Xecs.C59_shared' depends on axioms: [propext, Classical.choice, Quot.sound]
'Xecs.C59_phases' depends on axioms: [propext, Classical.choice, Quot.sound]
'Xecs.C60_new' depends on axioms: [propext, Classical.choice, Quot.sound]
'Xecs.C60_peak' depends on axioms: [propext, Classical.choice, Quot.sound]
'Xecs.C60_block' depends on axioms: [propext, Classical.choice, Quot.sound]
'Xecs.C60_phases' depends on axioms: [propext, Classical.choice, Quot.sound]
'Xecs.C61_divided' depends on axioms: [propext, Classical.choice, Quot.sound]
'Xecs.C61_divided_drains' depends on axioms: [propext, Classical.choice, Quot.sound]
'Xecs.C61_updating' depends on axioms: [propext, Classical.choice, Quot.sound]
'Xecs.C61_scanning' depends on axioms: [propext, Classical.choice, Quot.sound]
'Xecs.C61_waits' depends on axioms: [propext, Classical.choice, Quot.sound]
'Xecs.C61_drains' depends on axioms: [propext, Classical.choice, Quot.sound]
'Xecs.C61_finite' depends on axioms: [propext, Classical.choice, Quot.sound]
'Xecs.C61_forever' depends on axioms: [propext, Quot.sound]
'Xecs.C61_disorder' depends on axioms: [propext, Quot.sound]
'Xecs.C61_self' depends on axioms: [propext, Quot.sound]
'Xecs.C62_storage' depends on axioms: [propext, Classical.choice, Quot.sound]
'Xecs.C62_packed' depends on axioms: [propext, Classical.choice, Quot.sound]
'Xecs.C63_call' depends on axioms: [propext, Quot.sound]
'Xecs.C63_any' depends on axioms: [propext, Classical.choice, Quot.sound]
'Xecs.C63_program' depends on axioms: [propext, Quot.sound]
'Xecs.C64_exact' depends on axioms: [propext, Classical.choice, Quot.sound]
'Xecs.C64_lookup' depends on axioms: [propext, Classical.choice, Quot.sound]
'Xecs.C64_defined' depends on axioms: [propext, Classical.choice, Quot.sound]
'Xecs.C64_own' depends on axioms: [propext, Classical.choice, Quot.sound]
'Xecs.C65_keeping_sound' depends on axioms: [propext, Classical.choice, Quot.sound]
'Xecs.C65_keeping_complete' depends on axioms: [propext, Classical.choice, Quot.sound]
'Xecs.C65_keeping_plain' depends on axioms: [propext, Classical.choice, Quot.sound]
'Xecs.C65_keeping_returns' depends on axioms: [propext, Classical.choice, Quot.sound]
'Xecs.C65_sound' depends on axioms: [propext, Classical.choice, Quot.sound]
'Xecs.C65_complete' depends on axioms: [propext, Classical.choice, Quot.sound]
'Xecs.C65_plain' depends on axioms: [propext, Classical.choice, Quot.sound]
'Xecs.C65_returns' depends on axioms: [propext, Classical.choice, Quot.sound]
'Xecs.C65_generalises' depends on axioms: [propext, Classical.choice, Quot.sound]
'Xecs.C65_sharp' depends on axioms: [propext, Quot.sound]
'Xecs.C65_sharp_filling' depends on axioms: [propext, Quot.sound]
'Xecs.C66_never_self' depends on axioms: [propext, Classical.choice, Quot.sound]
'Xecs.C66_others' depends on axioms: [propext, Classical.choice, Quot.sound]
'Xecs.C66_two' depends on axioms: [propext, Classical.choice, Quot.sound]
'Xecs.C66_reentry' depends on axioms: [propext, Classical.choice, Quot.sound]
'Xecs.C66_keeping' depends on axioms: [propext, Classical.choice, Quot.sound]
'Xecs.C66_keeping_two' depends on axioms: [propext, Classical.choice, Quot.sound]
'Xecs.C66_keeping_reentry' depends on axioms: [propext, Classical.choice, Quot.sound]
'Xecs.C66_conflict' depends on axioms: [propext, Quot.sound]
'Xecs.C66_kept' depends on axioms: [propext, Quot.sound]
'Xecs.C66_two_groups' depends on axioms: [propext, Classical.choice, Quot.sound]
'Xecs.C67_keeping_reduction' depends on axioms: [propext, Classical.choice, Quot.sound]
'Xecs.C67_keeping_at_rest' depends on axioms: [propext, Classical.choice, Quot.sound]
'Xecs.C67_keeping_converse' depends on axioms: [propext, Classical.choice, Quot.sound]
'Xecs.C67_keeping_no_race' depends on axioms: [propext, Classical.choice, Quot.sound]
'Xecs.C67_keeping_kept' depends on axioms: [propext, Classical.choice, Quot.sound]
'Xecs.C67_keeping_progress' depends on axioms: [propext, Classical.choice, Quot.sound]
'Xecs.C67_code' depends on axioms: [propext, Classical.choice, Quot.sound]
'Xecs.C67_reduction' depends on axioms: [propext, Classical.choice, Quot.sound]
'Xecs.C67_at_rest' depends on axioms: [propext, Classical.choice, Quot.sound]
'Xecs.C67_converse' depends on axioms: [propext, Classical.choice, Quot.sound]
'Xecs.C67_no_race' depends on axioms: [propext, Classical.choice, Quot.sound]
'Xecs.C67_private' depends on axioms: [propext, Classical.choice, Quot.sound]
'Xecs.C67_progress' depends on axioms: [propext, Classical.choice, Quot.sound]
'Xecs.C67_queries' depends on axioms: [propext, Classical.choice, Quot.sound]
'Xecs.C67_atomic' depends on axioms: [propext, Classical.choice, Quot.sound]
'Xecs.C68_never' depends on axioms: [propext, Classical.choice, Quot.sound]
'Xecs.C68_keeping' depends on axioms: [propext, Classical.choice, Quot.sound]
'Xecs.C68_exist' depends on axioms: [propext, Classical.choice, Quot.sound]
'Xecs.C68_keeping_exist' depends on axioms: [propext, Classical.choice, Quot.sound]
'Xecs.C68_sharp_attach' depends on axioms: [propext, Quot.sound]
'Xecs.C68_sharp_create' depends on axioms: [propext, Quot.sound]
'Xecs.C69_isolated' depends on axioms: [propext, Classical.choice, Quot.sound]
'Xecs.C69_considerate' depends on axioms: [propext, Classical.choice, Quot.sound]
'Xecs.C69_deterministic' depends on axioms: [propext, Classical.choice, Quot.sound]
'Xecs.C69_parallel' depends on axioms: [propext, Classical.choice, Quot.sound]
'Xecs.C69_keeping' depends on axioms: [propext, Classical.choice, Quot.sound]
'Xecs.C69_keeping_considerate' depends on axioms: [propext, Classical.choice, Quot.sound]
'Xecs.C70_reorder' depends on axioms: [propext, Classical.choice, Quot.sound]
'Xecs.C70_queries' depends on axioms: [propext, Classical.choice, Quot.sound]
'Xecs.C70_future' depends on axioms: [propext, Classical.choice, Quot.sound]
'Xecs.C70_absent' depends on axioms: [propext, Quot.sound]
'Xecs.C71_room' depends on axioms: [propext, Classical.choice, Quot.sound]
'Xecs.C71_during' depends on axioms: [propext, Classical.choice, Quot.sound]
'Xecs.C71_overflow' depends on axioms: [propext, Classical.choice, Quot.sound]
'Xecs.C71_overflow_during' depends on axioms: [propext, Classical.choice, Quot.sound]
'Xecs.C72_next' depends on axioms: [propext, Classical.choice, Quot.sound]
'Xecs.C72_without' depends on axioms: [propext, Classical.choice, Quot.sound]
'Xecs.C72_any' depends on axioms: [propext, Classical.choice, Quot.sound]
'Xecs.C73_effect' depends on axioms: [propext, Classical.choice, Quot.sound]
'Xecs.C73_fails' depends on axioms: [propext, Classical.choice, Quot.sound]
'Xecs.C73_read' depends on axioms: [propext, Classical.choice, Quot.sound]
'Xecs.C73_since' depends on axioms: [propext, Classical.choice, Quot.sound]
'Xecs.C73_queries' depends on axioms: [propext, Classical.choice, Quot.sound]
'Xecs.C73_listing' depends on axioms: [propext, Classical.choice, Quot.sound]
'Xecs.C73_finite' depends on axioms: [propext, Classical.choice, Quot.sound]
'Xecs.C74_moves' depends on axioms: [propext, Classical.choice, Quot.sound]
'Xecs.C74_turns' depends on axioms: [propext, Classical.choice, Quot.sound]
'Xecs.C74_thread' depends on axioms: [propext, Classical.choice, Quot.sound]
'Xecs.C74_call' depends on axioms: [propext, Classical.choice, Quot.sound]
'Xecs.C74_total' depends on axioms: [propext, Classical.choice, Quot.sound]
'Xecs.C74_thread_returns' depends on axioms: [propext, Classical.choice, Quot.sound]
'Xecs.C74_returns' depends on axioms: [propext, Classical.choice, Quot.sound]
'Xecs.C74_keeping_moves' depends on axioms: [propext, Classical.choice, Quot.sound]
'Xecs.C74_keeping_turns' depends on axioms: [propext, Classical.choice, Quot.sound]
'Xecs.C74_keeping_thread' depends on axioms: [propext, Classical.choice, Quot.sound]
'Xecs.C74_keeping_call' depends on axioms: [propext, Classical.choice, Quot.sound]
'Xecs.C74_keeping_returns' depends on axioms: [propext, Classical.choice, Quot.sound]
'Xecs.C75_exact' depends on axioms: [propext, Classical.choice, Quot.sound]
'Xecs.C75_owning' depends on axioms: [propext, Classical.choice, Quot.sound]
'Xecs.C75_complete' depends on axioms: [propext, Classical.choice, Quot.sound] 
```
