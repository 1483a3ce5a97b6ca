{"claims": [
{"property": "C01", "status": "proved", "theorems": ["Xecs.C01_read", "Xecs.C01_frame", "Xecs.C01_effect"], "note": ""},
{"property": "C02", "status": "proved", "theorems": ["Xecs.C02_listing", "Xecs.C02_unregistered"], "note": ""},
{"property": "C03", "status": "partial", "theorems": ["Xecs.C03_detach_partial", "Xecs.C03_exact", "Xecs.C03_returns", "Xecs.C03_detach_absent_counterexample"], "note": "English property is false of the code: detaching an absent component panics when the id is exactly one more than the largest id the type was attached to (src/sparse_set.rs:70, C03_detach_absent_counterexample). C03_detach_partial proves it for all other ids, C03_returns for present components. C03_exact: a detach of an absent component panics exactly in that case, and changes nothing."},
{"property": "C04", "status": "proved", "theorems": ["Xecs.C04_overwrite", "Xecs.C04_count", "Xecs.C04_order_counterexample"], "note": "The order clause carries the proviso stated in the property; C04_order_counterexample shows it is needed."},
{"property": "C05", "status": "proved", "theorems": ["Xecs.C05_batch", "Xecs.C05_create"], "note": ""},
{"property": "C06", "status": "proved", "theorems": ["Xecs.C06_make_group", "Xecs.C06_swap"], "note": ""},
{"property": "C07", "status": "proved", "theorems": ["Xecs.C07_unique", "Xecs.C07_batch"], "note": ""},
{"property": "C08", "status": "proved", "theorems": ["Xecs.C08_order", "Xecs.C08_recyclable"], "note": ""},
{"property": "C09", "status": "proved", "theorems": ["Xecs.C09_block"], "note": ""},
{"property": "C10", "status": "partial", "theorems": ["Xecs.C10_exist_partial", "Xecs.C10_liveness_partial", "Xecs.C10_zombie_counterexample", "Xecs.C10_unallocated_counterexample"], "note": "English property is false of the code: exist says true for the least recently removed id still waiting for reuse, and panics for ids never handed out (counterexamples). C10_exist_partial gives the exact answer for every id."},
{"property": "C11", "status": "partial", "theorems": ["Xecs.C11_dead_partial", "Xecs.C11_excepted", "Xecs.C11_zombie_counterexample", "Xecs.C11_twice_counterexample"], "note": "English property is false of the code for the least recently removed id still waiting for reuse (counterexamples: use after removal, double removal). Proved for every other dead id. C11_excepted: in every allowed history with an id waiting for reuse, that id is treated as alive."},
{"property": "C12", "status": "proved", "theorems": ["Xecs.C12_new", "Xecs.C12_batch"], "note": ""},
{"property": "C13", "status": "proved", "theorems": ["Xecs.C13_remove", "Xecs.C13_manual", "Xecs.C13_order"], "note": ""},
{"property": "C14", "status": "proved", "theorems": ["Xecs.C14_after", "Xecs.C14_full", "Xecs.C14_part", "Xecs.C14_succeeds"], "note": ""},
{"property": "C15", "status": "proved", "theorems": ["Xecs.C15_full", "Xecs.C15_sound"], "note": ""},
{"property": "C16", "status": "proved", "theorems": ["Xecs.C16_part", "Xecs.C16_sound"], "note": ""},
{"property": "C17", "status": "partial", "theorems": ["Xecs.C17_non_partial", "Xecs.C17_unchecked_counterexample", "Xecs.C17_wrong_value_counterexample", "Xecs.C17_owning_counterexample"], "note": "English property is false of the code: cached positions go stale (counterexamples: out-of-bounds read, another entity's value). Proved as long as nothing moved a component of the two types since the group was made."},
{"property": "C18", "status": "proved", "theorems": ["Xecs.C18_after", "Xecs.C18_exclusive", "Xecs.C18_conflict", "Xecs.C18_exactly"], "note": ""},
{"property": "C19", "status": "partial", "theorems": ["Xecs.C19_atomic_partial", "Xecs.C19_registered", "Xecs.C19_exact", "Xecs.C19_left_behind_counterexample"], "note": "English property is false of the code: make_group with an unregistered type leaves the group behind (counterexample). C19_atomic_partial: nothing else changes; C19_registered: atomic for registered types. C19_exact: exactly when it fails, how, and what it leaves behind."},
{"property": "C20", "status": "partial", "theorems": ["Xecs.C20_after", "Xecs.C20_exact", "Xecs.C20_reattach_partial", "Xecs.C20_before", "Xecs.C20_bypass_counterexample"], "note": "English property is false of the code: batch attach bypasses groups (counterexample). C20_exact says exactly which entities are in a group in every allowed history; C20_reattach_partial: an individual attach repairs it; C20_before: groups made afterwards see them."},
{"property": "C21", "status": "partial", "theorems": ["Xecs.C21_overlap", "Xecs.C21_groups_partial", "Xecs.C21_overlap_counterexample", "Xecs.C21_stale_counterexample"], "note": "English property is false of the code for overlapping groups (counterexamples). C21_groups_partial: proved when no older group owns a type of a newer one both containing the entity. C21_overlap: in the other case the claim always fails: the newer group's query never yields the right list (so the condition is exact for overlap); for non-owning groups see C64."},
{"property": "C22", "status": "proved", "theorems": ["Xecs.C22_nested", "Xecs.C22_agree"], "note": ""},
{"property": "C23", "status": "proved", "theorems": ["Xecs.C23_meaning", "Xecs.C23_pair", "Xecs.C23_triple", "Xecs.C23_quadruple", "Xecs.C23_quintuple"], "note": ""},
{"property": "C24", "status": "proved", "theorems": ["Xecs.C24_right", "Xecs.C24_left"], "note": ""},
{"property": "C25", "status": "proved", "theorems": ["Xecs.C25_from_id", "Xecs.C25_unique"], "note": ""},
{"property": "C26", "status": "proved", "theorems": ["Xecs.C26_mixed", "Xecs.C26_same"], "note": ""},
{"property": "C27", "status": "proved", "theorems": ["Xecs.C27_exact", "Xecs.C27_sound", "Xecs.C27_ends"], "note": ""},
{"property": "C28", "status": "partial", "theorems": ["Xecs.C28_items", "Xecs.C28_iteration_partial", "Xecs.C28_exact", "Xecs.C28_from_id_counterexample", "Xecs.C28_outlive_counterexample"], "note": "English property is false of the code: from_id hands out a second mutable reference; items outlive the iterator (counterexamples). Proved for all iteration without from_id while the iterator lives. C28_exact: with from_id calls, exactly when the references handed out by one iterator are compatible."},
{"property": "C29", "status": "proved", "theorems": ["Xecs.C29_update", "Xecs.C29_map", "Xecs.C29_map2", "Xecs.C29_write", "Xecs.C29_data"], "note": ""},
{"property": "C30", "status": "proved", "theorems": ["Xecs.C30_read", "Xecs.C30_update", "Xecs.C30_frame"], "note": ""},
{"property": "C31", "status": "proved", "theorems": ["Xecs.C31_downcast", "Xecs.C31_no_ub"], "note": ""},
{"property": "C32", "status": "proved", "theorems": ["Xecs.C32_twice", "Xecs.C32_once", "Xecs.C32_forever"], "note": ""},
{"property": "C33", "status": "proved", "theorems": ["Xecs.C33_after", "Xecs.C33_unregistered", "Xecs.C33_length", "Xecs.C33_dead", "Xecs.C33_query", "Xecs.C33_intact"], "note": ""},
{"property": "C34", "status": "proved", "theorems": ["Xecs.C34_after", "Xecs.C34_exactly", "Xecs.C34_disciplined", "Xecs.C34_iteration"], "note": ""},
{"property": "C35", "status": "proved", "theorems": ["Xecs.C35_exclusion", "Xecs.C35_guarded", "Xecs.C35_no_race", "Xecs.C35_footprint", "Xecs.C35_commute", "Xecs.C35_released"], "note": ""},
{"property": "C36", "status": "proved", "theorems": ["Xecs.C36_handle_protects", "Xecs.C36_attach_alive"], "note": ""},
{"property": "C37", "status": "proved", "theorems": ["Xecs.C37_distinct", "Xecs.C37_succeeds"], "note": ""},
{"property": "C38", "status": "proved", "theorems": ["Xecs.C38_sound", "Xecs.C38_complete", "Xecs.C38_returns"], "note": "Mixed tr w: allowed calls and earlier considerate shared phases."},
{"property": "C39", "status": "partial", "theorems": ["Xecs.C39_sound_partial", "Xecs.C39_complete_partial", "Xecs.C39_plain_partial", "Xecs.C39_detach_attach_counterexample"], "note": "English property is false of the code for detach racing with attach on one entity (counterexample schedule). Proved for every schedule of clients that coordinate their work per entity. Mixed tr w: allowed calls and earlier considerate shared phases."},
{"property": "C40", "status": "partial", "theorems": ["Xecs.C40_divided_partial", "Xecs.C40_divided_drains_partial", "Xecs.C40_updating_divided", "Xecs.C40_sharp_attach", "Xecs.C40_sharp_detach", "Xecs.C40_sharp_writer", "Xecs.C40_sharp_queries", "Xecs.C40_updating_partial", "Xecs.C40_scanning_partial", "Xecs.C40_progress", "Xecs.C40_finite", "Xecs.C40_drains_partial", "Xecs.C40_query_attach_counterexample", "Xecs.C40_queries_counterexample", "Xecs.C40_remove_attach_counterexample", "Xecs.C40_read_twice_counterexample", "Xecs.C40_self_counterexample"], "note": "English property is false of the code (five deadlock schedules). Proved for ordered clients: those that update and run no group queries (C40_updating_partial), those that query groups and update no memberships (C40_scanning_partial), and those that update some groups and query others (C40_divided_partial, which contains the first class: C40_updating_divided). Missing: clients out of order, and group queries next to updates of a group sharing types with it: these do deadlock in every world, not just in an example, when two threads name two component types in opposite orders (C40_sharp_queries), or one queries a group whose types the other attaches or detaches (C40_sharp_attach, C40_sharp_detach, C40_sharp_writer)."},
{"property": "C41", "status": "proved", "theorems": ["Xecs.C41_conflict", "Xecs.C41_succeeds", "Xecs.C41_guards"], "note": ""},
{"property": "C42", "status": "proved", "theorems": ["Xecs.C42_listing", "Xecs.C42_count"], "note": ""},
{"property": "C43", "status": "partial", "theorems": ["Xecs.C43_reads_partial", "Xecs.C43_listing", "Xecs.C43_resurrected_counterexample", "Xecs.C43_duplicate_counterexample"], "note": "English property is false of the code: the old entries stay in the dense arrays (counterexamples). C43_reads_partial: reads right after the batch attach are correct. C43_listing: what iteration, count and data show right after it, exactly."},
{"property": "C44", "status": "proved", "theorems": ["Xecs.C44_no_block", "Xecs.C44_query", "Xecs.C44_storage", "Xecs.C44_calls", "Xecs.C44_self_group_counterexample"], "note": "The proviso on owning groups of a type with itself is needed (C44_self_group_counterexample)."},
{"property": "C45", "status": "proved", "theorems": ["Xecs.C45_alone"], "note": ""},
{"property": "C46", "status": "proved", "theorems": ["Xecs.C46_kept", "Xecs.C46_create", "Xecs.C46_remove"], "note": "The model drops the kept guards when the call returns; which guards a call takes is given by ApiCall.needs. Reached w: any calls (returning or panicking half way) and any earlier shared phases, batch attaches only to entities lacking the component."},
{"property": "C47", "status": "proved", "theorems": ["Xecs.C47_ends", "Xecs.C47_collect"], "note": ""},
{"property": "C48", "status": "proved", "theorems": ["Xecs.C48_atomic", "Xecs.C48_history"], "note": "Hypothesis BatchesFit: batch attaches go to entities that do not have the component (otherwise C43 applies). Atomic False: for arbitrary clients creation, removal and exist are not constrained (C49 does that). A call that panics stops where it is, with the operations done so far in effect. Reached w: any calls (returning or panicking half way) and any earlier shared phases, batch attaches only to entities lacking the component."},
{"property": "C49", "status": "proved", "theorems": ["Xecs.C49_atomic", "Xecs.C49_removal_counterexample"], "note": "For considerate clients (Sys.considerate, see C65; it includes the clients of C39, C65_generalises). A removal drops components step by step, which other threads can see: C49_removal_counterexample. Every batch attach, at creation or later through a kept Entities handle, happens at one moment, to entities that are all alive and have no such component (Point.batch). Mixed tr w: allowed calls and earlier considerate shared phases."},
{"property": "C50", "status": "proved", "theorems": ["Xecs.C50_components", "Xecs.C50_entities", "Xecs.C50_resources", "Xecs.C50_goes_on", "Xecs.C50_damage_counterexample"], "note": "Sections are modelled statement by statement (Proofs/Exact, ExactWorld). C50_damage_counterexample shows that the damage allowed for by the theorems happens."},
{"property": "C51", "status": "proved", "theorems": ["Xecs.C51_exclusion", "Xecs.C51_guarded", "Xecs.C51_no_race", "Xecs.C51_held", "Xecs.C51_gives", "Xecs.C51_lasts", "Xecs.C51_handle", "Xecs.C51_handle_protects", "Xecs.C51_read_storage", "Xecs.C51_read_resource", "Xecs.C51_view", "Xecs.C51_write_storage", "Xecs.C51_write_resource", "Xecs.C51_write_presence", "Xecs.C51_range_counterexample"], "note": "For arbitrary clients (any `may`). KeepsGuard covers guards kept by themselves and in open queries. An open query is modelled by its guards; C51_view says its answer cannot change meanwhile. C51_gives: what a call gives to keep; C51_lasts: only the owner's own giving-back ends it. C51_range_counterexample: the guarantee that the entity exists is for handles of single entities; a kept Entities handle stops removals, but an entity of the range may have been removed just before it was handed out."},
{"property": "C52", "status": "proved", "theorems": ["Xecs.C52_atomic", "Xecs.C52_considerate", "Xecs.C52_history", "Xecs.C52_distinct", "Xecs.C52_sound", "Xecs.C52_complete", "Xecs.C52_disciplined_complete", "Xecs.C52_returns"], "note": "By simulation (Proofs/KeepingStep: sim_history); C52_disciplined_complete is for owning groups, as C39. Sys.Blind: the condition on calls looks only at the world and at which calls are running on which entities and which ranges are still being given batches; proved for all conditions used. Includes further batch attaches through a kept Entities handle (KCall.viaHandles). Reached w: any calls (returning or panicking half way) and any earlier shared phases, batch attaches only to entities lacking the component."},
{"property": "C53", "status": "proved", "theorems": ["Xecs.C53_forever", "Xecs.C53_self"], "note": ""},
{"property": "C54", "status": "proved", "theorems": ["Xecs.C54_sequential", "Xecs.C54_account", "Xecs.C54_state", "Xecs.C54_queries", "Xecs.C54_during", "Xecs.C54_keeping", "Xecs.C54_keeping_during"], "note": "Mixed histories: a shared phase enters the history as its record, one entry per piece of work that makes a change; C54_account ties the record to the logged results of each thread. The Ready hypothesis of the query theorems (C22-C29) has a case for Mixed histories. Ranges may be created with batches of components within a phase. Queries over non-owning groups after a shared phase: under the condition Unmoved on the recorded history (see C22_unmoved), which excludes the known defects; the finer condition Undisturbed of the sequential theorems is not available after a shared phase."},
{"property": "C55", "status": "proved", "theorems": ["Xecs.C55_read", "Xecs.C55_write", "Xecs.C55_outside"], "note": "The contract (the entity has the component) is stated by the history (lastValue); C55_outside describes calls outside it."},
{"property": "C56", "status": "partial", "theorems": ["Xecs.C56_wild_partial", "Xecs.C56_calls_partial", "Xecs.C56_queries_partial", "Xecs.C56_shared_partial", "Xecs.C56_considerate_partial", "Xecs.C56_keeping_partial", "Xecs.C56_rebatch_counterexample", "Xecs.C56_overlap_counterexample", "Xecs.C56_race_counterexample"], "note": "False of the code for reads after an id was attached twice by batch, and for queries that name groups after some removals, non-owning groups (C17) and races: counterexamples. Proved: everything else, for any history, threads and kept guards; for considerate clients (C65) also queries naming owning groups. Reached w: any calls (returning or panicking half way) and any earlier shared phases, batch attaches only to entities lacking the component."},
{"property": "C57", "status": "partial", "theorems": ["Xecs.C57_once_partial", "Xecs.C57_gone_partial", "Xecs.C57_new_partial", "Xecs.C57_once_counterexample", "Xecs.C57_leftover_counterexample"], "note": "False of the code for clients that remove an entity another thread works on (double removal hands an id out twice; a component attached during the removal stays): counterexamples. Proved for considerate clients (C65), for every history and schedule."},
{"property": "C58", "status": "partial", "theorems": ["Xecs.C58_returns_partial", "Xecs.C58_detach_counterexample", "Xecs.C58_query_counterexample", "Xecs.C58_keeping_partial"], "note": "Proved for considerate clients (C65), calls that detach a type only if the entity or one with a higher id has a component of the type when the call starts (or the call attaches it before), and queries without non-owning groups. False of the code for the rest (counterexamples): a detach that finds nothing, which alone returns None, panics if another thread attaches the component to the entity with the preceding id; a query on a non-owning group fails after another thread's detach."},
{"property": "C59", "status": "proved", "theorems": ["Xecs.C59_keeping", "Xecs.C59_held", "Xecs.C59_call", "Xecs.C59_exact", "Xecs.C59_removal", "Xecs.C59_balance", "Xecs.C59_calls", "Xecs.C59_shared", "Xecs.C59_phases"], "note": "Drop of values is modelled as disappearance from the storage: that a value which left the storage is dropped exactly once (rather than leaked) is Rust's ownership, not modelled. Values assigned through several-element accesses (data_mut, iter_mut) are covered by C29, not here."},
{"property": "C60", "status": "proved", "theorems": ["Xecs.C60_new", "Xecs.C60_peak", "Xecs.C60_block", "Xecs.C60_phases"], "note": ""},
{"property": "C61", "status": "proved", "theorems": ["Xecs.C61_divided", "Xecs.C61_divided_drains", "Xecs.C61_updating", "Xecs.C61_scanning", "Xecs.C61_waits", "Xecs.C61_drains", "Xecs.C61_finite", "Xecs.C61_forever", "Xecs.C61_disorder", "Xecs.C61_self"], "note": ""},
{"property": "C62", "status": "proved", "theorems": ["Xecs.C62_storage", "Xecs.C62_packed"], "note": ""},
{"property": "C63", "status": "proved", "theorems": ["Xecs.C63_call", "Xecs.C63_any", "Xecs.C63_program"], "note": ""},
{"property": "C64", "status": "proved", "theorems": ["Xecs.C64_exact", "Xecs.C64_lookup", "Xecs.C64_defined", "Xecs.C64_own"], "note": "Complements C17, which is partial because the yielded components are in general not the members' own ones: here it is proved what they are."},
{"property": "C65", "status": "proved", "theorems": ["Xecs.C65_keeping_sound", "Xecs.C65_keeping_complete", "Xecs.C65_keeping_plain", "Xecs.C65_keeping_returns", "Xecs.C65_sound", "Xecs.C65_complete", "Xecs.C65_plain", "Xecs.C65_returns", "Xecs.C65_generalises", "Xecs.C65_sharp", "Xecs.C65_sharp_filling"], "note": "Generalises the discipline under which C39 is proved (C65_generalises); C65_sharp and C65_sharp_filling are the counterexamples for the excluded cases. Batches may also be attached later, through a kept Entities handle, to entities that have no such component and that nobody works on. Mixed tr w: allowed calls and earlier considerate shared phases."},
{"property": "C66", "status": "proved", "theorems": ["Xecs.C66_never_self", "Xecs.C66_others", "Xecs.C66_two", "Xecs.C66_reentry", "Xecs.C66_keeping", "Xecs.C66_keeping_two", "Xecs.C66_keeping_reentry", "Xecs.C66_conflict", "Xecs.C66_kept", "Xecs.C66_two_groups"], "note": "C66_conflict, C66_kept and C66_two_groups show that the conditions are needed."},
{"property": "C67", "status": "proved", "theorems": ["Xecs.C67_keeping_reduction", "Xecs.C67_keeping_at_rest", "Xecs.C67_keeping_converse", "Xecs.C67_keeping_no_race", "Xecs.C67_keeping_kept", "Xecs.C67_keeping_progress", "Xecs.C67_code", "Xecs.C67_reduction", "Xecs.C67_at_rest", "Xecs.C67_converse", "Xecs.C67_no_race", "Xecs.C67_private", "Xecs.C67_progress", "Xecs.C67_queries", "Xecs.C67_atomic"], "note": "C67_code is about the code's statements (Act.stm); C67_reduction, C67_at_rest, C67_converse, C67_no_race, C67_private and C67_progress hold for every division into statements satisfying the specification Splits, which C67_code proves of the code's. C67_queries and C67_atomic are two properties (C38, C49) carried over; every other theorem about schedules carries over in the same way by C67_reduction. C67_keeping_*: the same for clients that keep handles, guards and iterators across calls. Mixed tr w: allowed calls and earlier considerate shared phases."},
{"property": "C68", "status": "proved", "theorems": ["Xecs.C68_never", "Xecs.C68_keeping", "Xecs.C68_exist", "Xecs.C68_keeping_exist", "Xecs.C68_sharp_attach", "Xecs.C68_sharp_create"], "note": "C68_never for calls on the World, C68_keeping for clients that keep handles, guards and iterators, C68_exist for exist. C68_sharp_attach and C68_sharp_create show that attaching components of types in full-owning groups and create_entity do not belong in the list. Hypothesis Reached/BatchesFit: batches are attached to entities that lack the component (a library precondition, see C19). Reached w: any calls (returning or panicking half way) and any earlier shared phases, batch attaches only to entities lacking the component."},
{"property": "C69", "status": "proved", "theorems": ["Xecs.C69_isolated", "Xecs.C69_considerate", "Xecs.C69_deterministic", "Xecs.C69_parallel", "Xecs.C69_keeping", "Xecs.C69_keeping_considerate"], "note": "C69_isolated for any clients (created entities get no components meanwhile, batches go to entities lacking the component), C69_considerate without that restriction for considerate clients (C65), C69_deterministic and C69_parallel compare two schedules, C69_keeping and C69_keeping_considerate for clients that keep handles, guards and iterators. Reached w: any calls (returning or panicking half way) and any earlier shared phases, batch attaches only to entities lacking the component."},
{"property": "C70", "status": "proved", "theorems": ["Xecs.C70_reorder", "Xecs.C70_queries", "Xecs.C70_future", "Xecs.C70_absent"], "note": "C70_reorder: same returned values, components and entities; C70_queries: same query results up to order; C70_future: same answers of whatever call comes next; C70_absent shows why detaching absent components is excepted."},
{"property": "C71", "status": "proved", "theorems": ["Xecs.C71_room", "Xecs.C71_during", "Xecs.C71_overflow", "Xecs.C71_overflow_during"], "note": "C71_room: lists and counters (Room in Spec/Space); C71_overflow: 64-bit arithmetic. The index of a non-owning group's own table is not covered by Room."},
{"property": "C72", "status": "proved", "theorems": ["Xecs.C72_next", "Xecs.C72_without", "Xecs.C72_any"], "note": "C72_without: the history without its make_group calls is again one the code plays, and what comes next is the same; C72_next: any two histories that differ in make_group calls only; C72_any: components and queries after undisciplined histories."},
{"property": "C73", "status": "proved", "theorems": ["Xecs.C73_effect", "Xecs.C73_fails", "Xecs.C73_read", "Xecs.C73_since", "Xecs.C73_queries", "Xecs.C73_listing", "Xecs.C73_finite"], "note": "Reached w: any calls (returning or panicking half way) and any earlier shared phases, batch attaches only to entities lacking the component (otherwise C43 applies). C73_effect one call that returns, C73_fails one that panics, C73_since any number of calls, C73_read/C73_listing/C73_queries what is seen; C73_finite shows that the enumeration of storages demanded of remove_entity exists."},
{"property": "C74", "status": "proved", "theorems": ["Xecs.C74_moves", "Xecs.C74_turns", "Xecs.C74_thread", "Xecs.C74_call", "Xecs.C74_total", "Xecs.C74_thread_returns", "Xecs.C74_returns", "Xecs.C74_keeping_moves", "Xecs.C74_keeping_turns", "Xecs.C74_keeping_thread", "Xecs.C74_keeping_call", "Xecs.C74_keeping_returns"], "note": "C74_moves and C74_turns attribute steps to threads; C74_call bounds one call (strictly: its last step is still to come), C74_thread all calls of a thread from any moment on, C74_total all threads together; C74_thread_returns/C74_returns say what follows for schedules without end. C74_keeping_*: the same for kept handles and guards. The unit is a step of the model: a piece of work done under locks (e.g. going through all items of a query) is one. The bound is met by a concrete call (Props/Bounded). That a waiting thread gets its lock is C40/C60/C61."},
{"property": "C75", "status": "proved", "theorems": ["Xecs.C75_exact", "Xecs.C75_owning", "Xecs.C75_complete"], "note": "C75_exact: the full list, for all queries; C75_complete and C75_owning: its consequences for queries without non-owning groups, with the plain meaning of queries (Query.answer, as in C23). `Query.leader` is the part iterated over, `joined` membership according to the history (as in C20_exact). Together with C23 (no batch attaches since) nothing about batch attaches is left out."}
]}
