{
 "claims": [
  {
   "property": "C01",
   "status": "proved",
   "theorems": [
    "Mcut.Api.C01_handles_unique",
    "Mcut.Api.C01_component_handles_unique",
    "Mcut.Api.C01_lookup_unambiguous",
    "Mcut.Api.C01_released_handles_stay_dead"
   ],
   "note": "every reachable state of the API model"
  },
  {
   "property": "C02",
   "status": "proved",
   "theorems": [
    "Mcut.Version.C02_roundtrip",
    "Mcut.Version.C02_monotone",
    "Mcut.Version.C02_decode_encode"
   ],
   "note": "all component values within their bit fields"
  },
  {
   "property": "C03",
   "status": "partial",
   "theorems": [
    "Mcut.Ctx.C03_control_partial",
    "Mcut.Ctx.C03_last_writer",
    "Mcut.Ctx.C03_trailing_zeroes",
    "Mcut.Ctx.C03_source_api_rejected_fails",
    "Mcut.Ctx.C03_frontend_source_fails"
   ],
   "note": "filter semantics and last-writer law proved for every history; two disagreements proved: MC_DEBUG_SOURCE_API is refused, MC_DEBUG_SOURCE_ALL never enables MC_DEBUG_SOURCE_FRONTEND"
  },
  {
   "property": "C04",
   "status": "proved",
   "theorems": [
    "Mcut.Ctx.C04_message",
    "Mcut.Ctx.C04_history",
    "Mcut.Ctx.C04_silent_without_debug"
   ],
   "note": "single message and whole-history delivery"
  },
  {
   "property": "C05",
   "status": "partial",
   "theorems": [
    "Mcut.Ctx.C05_prefix_partial",
    "Mcut.Ctx.C05_repeatable",
    "Mcut.Ctx.C05_rejects",
    "Mcut.Ctx.C05_null_buffer_appends_fails"
   ],
   "note": "maximal fitting prefix, repeatability and rejection proved; the null-buffer query can append to the log (proved)"
  },
  {
   "property": "C06",
   "status": "partial",
   "theorems": [
    "Mcut.Ctx.C06_bind_accepts",
    "Mcut.Ctx.C06_rejected_bind",
    "Mcut.Ctx.C06_round_trip_partial",
    "Mcut.Ctx.C06_winding_order_stored",
    "Mcut.Ctx.C06_winding_order_query_fails",
    "Mcut.Ctx.C06_nan_accepted_fails",
    "Mcut.Ctx.C06_accepted_domain_partial"
   ],
   "note": "round trip over all histories for the two states that can be queried; winding order cannot be queried and NaN is accepted (both proved)"
  },
  {
   "property": "C07",
   "status": "partial",
   "theorems": [
    "Mcut.Ctx.C07_size_query",
    "Mcut.Ctx.C07_no_overrun_partial",
    "Mcut.Ctx.C07_flags_exact",
    "Mcut.Ctx.C07_overrun_fails",
    "Mcut.Ctx.C07_null_size_pointer_fails",
    "Mcut.Ctx.C07_max_message_length"
   ],
   "note": "size query exact for all states; overrun for all states except the flags proved to happen"
  },
  {
   "property": "C08",
   "status": "proved",
   "theorems": [
    "Mcut.Api.C08_status_only_advances",
    "Mcut.Api.C08_no_status_skipped",
    "Mcut.Api.C08_starts_submitted",
    "Mcut.Api.C08_complete_is_true"
   ],
   "note": "every history; note: a user event set to an error code stays RUNNING and never becomes COMPLETE (proved as part of the exact state sequence)"
  },
  {
   "property": "C09",
   "status": "partial",
   "theorems": [
    "Mcut.Api.C09_at_most_once",
    "Mcut.Api.C09_only_registered",
    "Mcut.Api.C09_exactly_once",
    "Mcut.Api.C09_exactly_once_user",
    "Mcut.Api.C09_never_early_partial",
    "Mcut.Api.C09_destructor_only_after_release",
    "Mcut.Api.C09_before_finish_fails"
   ],
   "note": "at most once, only registered callbacks, exactly once when the event finishes; a callback can run before the command finished or only at destruction (both proved)"
  },
  {
   "property": "C10",
   "status": "partial",
   "theorems": [
    "Mcut.Api.C10_start_gated_partial",
    "Mcut.Api.C10_failed_command_blocks",
    "Mcut.Api.C10_unfinished_command_blocks",
    "Mcut.Api.C10_user_error_blocks",
    "Mcut.Api.C10_skipped_dependency_fails",
    "Mcut.Api.C10_user_event_race_fails"
   ],
   "note": "start gating proved for every schedule; two disagreements proved: a dependency that was skipped does not block, and a user event can fail after the check"
  },
  {
   "property": "C11",
   "status": "partial",
   "theorems": [
    "Mcut.Api.C11_skipped_reports_no_error",
    "Mcut.Api.C11_wait_never_blames_skipped",
    "Mcut.Api.C11_dependant_reports_error_fails"
   ],
   "note": "what is reported for skipped commands proved; the full claim is proved FALSE"
  },
  {
   "property": "C12",
   "status": "partial",
   "theorems": [
    "Mcut.Api.C12_no_error_partial",
    "Mcut.Api.C12_error",
    "Mcut.Api.C12_failed_command_reported",
    "Mcut.Api.C12_only_success_fails"
   ],
   "note": "error and no-error directions proved; the only-success claim is proved FALSE"
  },
  {
   "property": "C13",
   "status": "partial",
   "theorems": [
    "Mcut.Api.C13_at_most_one_success",
    "Mcut.Api.C13_success_means_settable",
    "Mcut.Api.C13_results",
    "Mcut.Api.C13_repeat_changes_nothing",
    "Mcut.Api.C13_settable_accepted",
    "Mcut.Api.C13_failed_call_changes_nothing_fails"
   ],
   "note": "at most one success, results and repeatability proved; a failed call can still change the event (proved)"
  },
  {
   "property": "C14",
   "status": "partial",
   "theorems": [
    "Mcut.Api.C14_queue_order",
    "Mcut.Api.C14_one_at_a_time",
    "Mcut.Api.C14_in_order_context",
    "Mcut.Api.C14_calls_in_order",
    "Mcut.Api.C14_queue_index_valid_partial",
    "Mcut.Api.C14_foreign_wait_list_fails"
   ],
   "note": "order within a queue and for in-order contexts for every history; the queue index can be out of range when a wait list names a command of another context (proved)"
  },
  {
   "property": "C15",
   "status": "proved",
   "theorems": [
    "Mcut.Queue.C15_fifo",
    "Mcut.Queue.C15_try_pop",
    "Mcut.Queue.C15_wait_and_pop"
   ],
   "note": "every interleaving of the locked steps refines a FIFO"
  },
  {
   "property": "C16",
   "status": "proved",
   "theorems": [
    "Mcut.OList.C16_find",
    "Mcut.OList.C16_remove",
    "Mcut.OList.C16_removed_only_if_matching",
    "Mcut.OList.C16_for_each",
    "Mcut.OList.C16_no_dangling",
    "Mcut.OList.C16_sequential_map"
   ],
   "note": "hand-over-hand locking, every interleaving"
  },
  {
   "property": "C17",
   "status": "partial",
   "theorems": [
    "Mcut.Sched.C17_blocks_partition_partial",
    "Mcut.Sched.C17_schedule_independent",
    "Mcut.Sched.C17_wraps_fails",
    "Mcut.Sched.C17_empty_range_fails"
   ],
   "note": "for lengths where the 32-bit ceil computation does not wrap and non-empty ranges; the two excluded cases are proved to fail"
  },
  {
   "property": "C18",
   "status": "partial",
   "theorems": [
    "Mcut.PrefixSum.C18_sequential",
    "Mcut.PrefixSum.C18_all_done_partial",
    "Mcut.PrefixSum.C18_no_deadlock",
    "Mcut.PrefixSum.C18_terminates",
    "Mcut.PrefixSum.C18_at_return_partial",
    "Mcut.PrefixSum.C18_return_too_early_fails",
    "Mcut.PrefixSum.C18_call_partial"
   ],
   "note": "result right once all workers are done, no deadlock, termination; the call returns before the workers finish with 3 or more blocks (proved)"
  },
  {
   "property": "C19",
   "status": "partial",
   "theorems": [
    "Mcut.Find.C19_find_if",
    "Mcut.Find.C19_find_if_terminates",
    "Mcut.Find.C19_parallel_find_partial",
    "Mcut.Find.C19_parallel_find_fails"
   ],
   "note": "find_if sound and complete for all block structures; parallel_find proved wrong because of a comma expression"
  },
  {
   "property": "C20",
   "status": "proved",
   "theorems": [
    "Mcut.CC.C20_count",
    "Mcut.CC.C20_fill",
    "Mcut.CC.C20_complete"
   ],
   "note": "all tables, masks and capacities; a fill call resets the count to 0"
  },
  {
   "property": "C21",
   "status": "partial",
   "theorems": [
    "Mcut.CC.C21_size_then_copy_partial",
    "Mcut.CC.C21_size_query",
    "Mcut.CC.C21_face_race_fails"
   ],
   "note": "for every component, history and schedule, including every interleaving of the prefix sum with the copy; for the faces the number of faces and threads must be such that copy and prefix sum use matching blocks (SafeFace); otherwise the race is proved to corrupt the face array (C21_face_race_fails)"
  },
  {
   "property": "C22",
   "status": "partial",
   "theorems": [
    "Mcut.CC.C22_checked_partial",
    "Mcut.CC.C22_full_copy_partial",
    "Mcut.CC.C22_oversized_refused",
    "Mcut.CC.C22_partial_copy_fails",
    "Mcut.CC.C22_vertices_fail"
   ],
   "note": "never outside the client array when the whole array is asked for, and for the flags that check; overruns by shorter requests are proved"
  },
  {
   "property": "C23",
   "status": "partial",
   "theorems": [
    "Mcut.CC.C23_faces_partial",
    "Mcut.CC.C23_other_flags",
    "Mcut.CC.C23_triangulation_partial",
    "Mcut.CC.C23_triangulation_map_fails"
   ],
   "note": "faces, and independence of all other flags, proved; the reversed triangulation no longer matches its face map (proved)"
  },
  {
   "property": "C24",
   "status": "proved",
   "theorems": [
    "Mcut.CC.C24_caches",
    "Mcut.CC.C24_copies"
   ],
   "note": "all components, block structures, reservation orders and store orders"
  },
  {
   "property": "C25",
   "status": "partial",
   "theorems": [
    "Mcut.CC.C25_after_triangulation_partial",
    "Mcut.CC.C25_triangulation_query",
    "Mcut.CC.C25_map_first_fails"
   ],
   "note": "after the triangulation for every history; the query without a prior triangulation is proved to be undefined behaviour"
  },
  {
   "property": "C26",
   "status": "partial",
   "theorems": [
    "Mcut.Dispatch.C26_vertex_map_partial",
    "Mcut.Dispatch.C26_injective",
    "Mcut.Dispatch.C26_inputs"
   ],
   "note": "for every dispatch, partitioning history and re-reading of the cut mesh: the translation layer for all components, and the complete map for the two input meshes; the maps that the kernel computes for its output meshes: C82 (not for sealed fragments)"
  },
  {
   "property": "C27",
   "status": "partial",
   "theorems": [
    "Mcut.Dispatch.C27_face_map_partial",
    "Mcut.Dispatch.C27_inputs"
   ],
   "note": "for every dispatch, partitioning history and re-reading of the cut mesh: the translation layer for all components, and the complete map for the two input meshes; the maps that the kernel computes for its output meshes: C82 (not for sealed fragments)"
  },
  {
   "property": "C28",
   "status": "partial",
   "theorems": [
    "Mcut.Release.C28_events",
    "Mcut.Release.C28_events_rejects",
    "Mcut.Release.C28_components_partial",
    "Mcut.Release.C28_all_components",
    "Mcut.Release.C28_components_rejects",
    "Mcut.Release.C28_huge_count_fails",
    "Mcut.Release.C28_context",
    "Mcut.Release.C28_released_not_found"
   ],
   "note": "all tables, arrays and counts for events and contexts; component counts below 2^31 (the count is cast to int: for larger counts the call succeeds and releases nothing, proved)"
  },
  {
   "property": "C29",
   "status": "proved",
   "theorems": [
    "Mcut.Hmesh.C29_consistent",
    "Mcut.Hmesh.C29_one_face",
    "Mcut.Hmesh.C29_cycle"
   ],
   "note": "all histories of accepted vertex/edge/face insertions and removals respecting the asserted preconditions; refused insertions are the subject of C31"
  },
  {
   "property": "C30",
   "status": "proved",
   "theorems": [
    "Mcut.Hmesh.C30_reads_back",
    "Mcut.Hmesh.C30_others_unchanged",
    "Mcut.Hmesh.C30_remove_others_unchanged"
   ],
   "note": "all reachable meshes and all polygons of live vertices; also for face removal"
  },
  {
   "property": "C31",
   "status": "partial",
   "theorems": [
    "Mcut.Hmesh.C31_insertable_exact",
    "Mcut.Hmesh.C31_rejected_only_if_occupied",
    "Mcut.Hmesh.C31_rejected_keeps_existing_partial",
    "Mcut.Hmesh.C31_rejected_unchanged_fails",
    "Mcut.Hmesh.C31_removed_face_reappears_fails"
   ],
   "note": "existing faces, vertices and coordinates are kept and is_insertable predicts acceptance exactly; the full claim is proved FALSE (edges grow, later insertions are refused, removed face reappears)"
  },
  {
   "property": "C32",
   "status": "proved",
   "theorems": [
    "Mcut.Hmesh.C32_enumeration",
    "Mcut.Hmesh.C32_counts",
    "Mcut.Hmesh.C32_add_vertex",
    "Mcut.Hmesh.C32_add_edge",
    "Mcut.Hmesh.C32_add_face",
    "Mcut.Hmesh.C32_remove"
   ],
   "note": "counts, enumeration, freshness and oldest-first reuse for every reachable mesh"
  },
  {
   "property": "C33",
   "status": "proved",
   "theorems": [
    "Mcut.Preproc.C33_accepts_iff",
    "Mcut.Preproc.C33_built",
    "Mcut.Preproc.C33_mesh",
    "Mcut.Preproc.C33_schedule_independent"
   ],
   "note": "all well-sized arrays, thread counts, prefix-sum interleavings and error-flag timings; numFaces = 0 is excluded (rejected by the parameter checks of mcDispatch); float-to-double conversion and perturbation happen before"
  },
  {
   "property": "C34",
   "status": "proved",
   "theorems": [
    "Mcut.Preproc.C34_ci",
    "Mcut.Preproc.C34_components",
    "Mcut.Preproc.C34_faces",
    "Mcut.Preproc.C34_accept"
   ],
   "note": "all meshes without removed vertices (the id vector is indexed by raw vertex index but sized by the live count); acceptance for all meshes read from client arrays"
  },
  {
   "property": "C35",
   "status": "partial",
   "theorems": [
    "Mcut.Bvh.C35_slots_bijective_partial",
    "Mcut.Bvh.C35_leaf_level",
    "Mcut.Bvh.C35_size_recurrence",
    "Mcut.Bvh.C35_is_real",
    "Mcut.Bvh.C35_children",
    "Mcut.Bvh.C35_ancestor",
    "Mcut.Bvh.C35_powers",
    "Mcut.Bvh.C35_is_power_of_two",
    "Mcut.Bvh.C35_float_rounding_fails",
    "Mcut.Bvh.C35_slot_out_of_range_fails"
   ],
   "note": "all face counts up to 2^23 (slots, sizes, children, ancestors); beyond that the float computation is proved to go wrong"
  },
  {
   "property": "C36",
   "status": "partial",
   "theorems": [
    "Mcut.Bvh.C36_broad_phase_partial",
    "Mcut.Bvh.C36_exactly_once_partial",
    "Mcut.Bvh.C36_map_symmetric",
    "Mcut.Bvh.C36_lost_face_fails"
   ],
   "note": "any face boxes, face order and thread schedule for up to 2^23 faces per mesh; a lost face beyond that is proved"
  },
  {
   "property": "C37",
   "status": "proved",
   "theorems": [
    "Mcut.Box.C37_points_least",
    "Mcut.Box.C37_boxes_least",
    "Mcut.Box.C37_order_independent",
    "Mcut.Box.C37_merge_schedule_independent",
    "Mcut.Box.C37_intersect_iff",
    "Mcut.Box.C37_intersect_symm_mono"
   ],
   "note": ""
  },
  {
   "property": "C38",
   "status": "partial",
   "theorems": [
    "Mcut.Dispatch.C38_calls",
    "Mcut.Dispatch.C38_size",
    "Mcut.Dispatch.C38_terminates",
    "Mcut.Dispatch.C38_outcome_partial",
    "Mcut.Dispatch.C38_success",
    "Mcut.Dispatch.C38_exhausted",
    "Mcut.Dispatch.C38_not_enforced",
    "Mcut.Dispatch.C38_reported",
    "Mcut.Dispatch.C38_first_perturbation_fails"
   ],
   "note": "number of kernel runs, perturbation counts, sizes and termination for every kernel behaviour and random number source; the exact outcome for runs without floating polygons and kernel exceptions; the claim about the first perturbation is proved FALSE"
  },
  {
   "property": "C39",
   "status": "partial",
   "theorems": [
    "Mcut.Dispatch.C39_sealed",
    "Mcut.Dispatch.C39_unsealed_partial",
    "Mcut.Dispatch.C39_patches",
    "Mcut.Dispatch.C39_seams",
    "Mcut.Dispatch.C39_no_filter",
    "Mcut.Dispatch.C39_unsealed_fails",
    "Mcut.Dispatch.C39_sealing_none_alone"
   ],
   "note": "all flag combinations and all candidate components; for unsealed fragments the claim is proved FALSE when the undefined-location flag is set without the unsealed flag; the exact rule is proved"
  },
  {
   "property": "C40",
   "status": "partial",
   "theorems": [
    "Mcut.Dispatch.C40_components_partial",
    "Mcut.Dispatch.C40_intersection_type",
    "Mcut.Dispatch.C40_context",
    "Mcut.Dispatch.C40_inputs_stored_fails"
   ],
   "note": "every kernel output, flags and history; the claim about the two input meshes is proved FALSE when the bounding volume hierarchies do not overlap (nothing is stored)"
  },
  {
   "property": "C41",
   "status": "partial",
   "theorems": [
    "Mcut.Geom.C41_classification_partial",
    "Mcut.Geom.C41_point",
    "Mcut.Geom.C41_total",
    "Mcut.Geom.C41_degenerate_fails",
    "Mcut.Geom.C41_demo"
   ],
   "note": "exact arithmetic over any ordered field, all pairs of segments of non-zero length: exact classification, point and parameters; for a segment of length zero the answer is proved wrong; rounding is not modelled"
  },
  {
   "property": "C42",
   "status": "partial",
   "theorems": [
    "Mcut.Geom.C42_segment_plane",
    "Mcut.Geom.C42_point",
    "Mcut.Geom.C42_type",
    "Mcut.Geom.C42_face_partial",
    "Mcut.Geom.C42_face_total",
    "Mcut.Geom.C42_line",
    "Mcut.Geom.C42_singular_ub",
    "Mcut.Geom.C42_repeated_ub",
    "Mcut.Geom.C42_nonplanar_fails",
    "Mcut.Geom.C42_demo"
   ],
   "note": "exact arithmetic over any ordered field: segment/plane for all planes and segments; the polygon versions for all planar faces with area whose first two vertices differ and whose normal is not singular for the projection (C58), for every choice the sort may make; undefined behaviour outside these conditions and disagreement for non-planar faces are proved; rounding is not modelled"
  },
  {
   "property": "C43",
   "status": "proved",
   "theorems": [
    "Mcut.Geom.C43_vertex",
    "Mcut.Geom.C43_rotate",
    "Mcut.Geom.C43_reverse",
    "Mcut.Geom.C43_edge",
    "Mcut.Geom.C43_off_boundary",
    "Mcut.Geom.C43_parity",
    "Mcut.Geom.C43_parity_generic",
    "Mcut.Geom.C43_fan",
    "Mcut.Geom.C43_triangle",
    "Mcut.Geom.C43_outside",
    "Mcut.Geom.C43_space_vertex",
    "Mcut.Geom.C43_space_edge",
    "Mcut.Geom.C43_space_cyclic",
    "Mcut.Geom.C43_space_fan",
    "Mcut.Geom.C43_demo",
    "Mcut.Geom.C43_demo_hypotheses",
    "Mcut.Geom.C43_double_edge_fails"
   ],
   "note": "exact arithmetic over any ordered field, all polygons (also self-intersecting) and points: vertex, exact rule for edge, independence of start and direction, crossing parity of a ray moved up by any small amount, fan and triangle characterisation, separation; in space for all planar polygons whose normal is not singular (C58); a point on an even number of overlapping edges is not reported on an edge (proved); rounding is not modelled"
  },
  {
   "property": "C44",
   "status": "partial",
   "theorems": [
    "Mcut.Params.C44_rejects_partial",
    "Mcut.Params.C44_accepts",
    "Mcut.Params.C44_no_error",
    "Mcut.Params.C44_blocking",
    "Mcut.Params.C44_demo",
    "Mcut.Params.C44_null_event_fails",
    "Mcut.Params.C44_null_event_refused",
    "Mcut.Params.C44_offset_fails",
    "Mcut.Params.C44_face_sizes_fails"
   ],
   "note": "all entry points and argument combinations: exact set of refused arguments, nothing else is refused, exceptions become error codes; documented conditions that the code does not check are proved to be accepted (section offset, null event pointer with a wait list, null face sizes)"
  },
  {
   "property": "C45",
   "status": "partial",
   "theorems": [
    "Mcut.Api.C45_own_result_partial",
    "Mcut.Api.C45_release_race_fails",
    "Mcut.Api.C45_no_event_left",
    "Mcut.Api.C45_wait_and_release_succeed",
    "Mcut.Api.C45_earlier_finished",
    "Mcut.Api.C45_unknown_context"
   ],
   "note": "a blocking call reports its own result and leaves no event; a release race on the event is proved possible"
  },
  {
   "property": "C46",
   "status": "proved",
   "theorems": [
    "Mcut.Seam.C46_decodable",
    "Mcut.Seam.C46_sequences",
    "Mcut.Seam.C46_undefined_exactly",
    "Mcut.Seam.C46_terminates",
    "Mcut.Seam.C46_branching_fails"
   ],
   "note": "every consistent mesh, every set of seam vertices without isolated ones and every hash-map order: layout, components, every vertex once; order and loop flag for seams that consist of paths and cycles (with all edges between seam vertices counted; C46_branching_fails shows that this is needed); exact condition for undefined behaviour"
  },
  {
   "property": "C47",
   "status": "proved",
   "theorems": [
    "Mcut.Morton.C47_interleaves",
    "Mcut.Morton.C47_injective",
    "Mcut.Morton.C47_monotone",
    "Mcut.Morton.C47_quantise",
    "Mcut.Morton.C47_quantise_clamps",
    "Mcut.Morton.C47_morton3D"
   ],
   "note": ""
  },
  {
   "property": "C48",
   "status": "proved",
   "theorems": [
    "Mcut.Barrier.C48_nobody_leaves_early",
    "Mcut.Barrier.C48_everybody_leaves",
    "Mcut.Barrier.C48_no_underflow"
   ],
   "note": "all interleavings, any number of rounds"
  },
  {
   "property": "C49",
   "status": "proved",
   "theorems": [
    "Mcut.Hmesh.C49_closed_iff",
    "Mcut.Hmesh.C49_no_border",
    "Mcut.Hmesh.C49_arrays"
   ],
   "note": "every reachable mesh"
  },
  {
   "property": "C50",
   "status": "proved",
   "theorems": [
    "Mcut.Hmesh.C50_symmetric",
    "Mcut.Hmesh.C50_exact",
    "Mcut.Hmesh.C50_size"
   ],
   "note": "every reachable mesh"
  },
  {
   "property": "C51",
   "status": "partial",
   "theorems": [
    "Mcut.Queue.C51_lost_wakeup_fails",
    "Mcut.Queue.C51_wakeup_partial",
    "Mcut.Queue.C51_notify_wakes_partial"
   ],
   "note": "a lost wake-up interleaving is proved to exist; wake-up proved when the notify does not fall into the window"
  },
  {
   "property": "C52",
   "status": "proved",
   "theorems": [
    "Mcut.Queue.C52_shutdown_wakes"
   ],
   "note": "every interleaving"
  },
  {
   "property": "C53",
   "status": "partial",
   "theorems": [
    "Mcut.Barrier.C53_barrier_may_be_in_use_after_return_fails"
   ],
   "note": "proved to be violated"
  },
  {
   "property": "C54",
   "status": "proved",
   "theorems": [
    "Mcut.Api.C54_causes",
    "Mcut.Api.C54_disciplined_clients_are_safe",
    "Mcut.Api.C54_signal_command_fails",
    "Mcut.Api.C54_release_pending_event_fails",
    "Mcut.Api.C54_release_busy_context_fails"
   ],
   "note": "complete classification of undefined-behaviour steps, safety of disciplined clients; each of the rules is needed (three counterexamples here, the fourth is C14_foreign_wait_list_fails)"
  },
  {
   "property": "C55",
   "status": "proved",
   "theorems": [
    "Mcut.Api.C55_no_deadlock",
    "Mcut.Api.C55_no_deadlock_disciplined",
    "Mcut.Api.C55_completion",
    "Mcut.Api.C55_calls_return"
   ],
   "note": "for all executions, wait lists and contexts: no deadlock, completion of every submitted command and return of every API call, under weak fairness of the threads; the body of a command is assumed to terminate"
  },
  {
   "property": "C56",
   "status": "partial",
   "theorems": [
    "Mcut.Pool.C56_no_deadlock_partial",
    "Mcut.Pool.C56_terminates_partial",
    "Mcut.Pool.C56_in_order_partial",
    "Mcut.Pool.C56_two_triangulations_fail",
    "Mcut.Pool.C56_triangulation_and_prefix_sum_fail"
   ],
   "note": "no deadlock and termination for every schedule when at most one manager uses barriers (and the others no chains), or nobody uses barriers, in particular for in-order contexts; the full claim is proved FALSE for out-of-order contexts (two deadlocks)"
  },
  {
   "property": "C57",
   "status": "partial",
   "theorems": [
    "Mcut.Params.C57_size",
    "Mcut.Params.C57_data_partial",
    "Mcut.Params.C57_data_exact",
    "Mcut.Params.C57_rejects",
    "Mcut.Params.C57_overread_iff",
    "Mcut.Params.C57_null_size_fails",
    "Mcut.Params.C57_demo"
   ],
   "note": "all events, kinds and sizes; the over-read for the command type and the context with larger buffers and the null store of a size query without a place for the size are proved (exact condition)"
  },
  {
   "property": "C58",
   "status": "partial",
   "theorems": [
    "Mcut.Geom.C58_lines",
    "Mcut.Geom.C58_injective_iff",
    "Mcut.Geom.C58_injective_y",
    "Mcut.Geom.C58_collapse",
    "Mcut.Geom.C58_collinear_iff",
    "Mcut.Geom.C58_singular_example",
    "Mcut.Geom.C58_demo"
   ],
   "note": "exact arithmetic: the exact set of normals for which the projection is injective; the claim is proved FALSE for the singular normals (which occur)"
  },
  {
   "property": "C59",
   "status": "proved",
   "theorems": [
    "Mcut.Extract.C59_components",
    "Mcut.Extract.C59_no_exception",
    "Mcut.Extract.C59_unmarked_throws",
    "Mcut.Extract.C59_again"
   ],
   "note": "every mesh without faces, every list of closed polygons on it that forms a valid mesh, all flags, tables and thread counts (a block arithmetic bound of 2^32 polygons), for an empty result store; exact copy, partition, location, seam vertices, maps; sufficient condition for no exception, and the exception for components without marks (C59_unmarked_throws); the location is reported as undefined if one of the two mark lists is empty (part of the theorem); how the polygons are traced is not modelled; the racy face counter in the thread-pool version is not used by the results"
  },
  {
   "property": "C60",
   "status": "proved",
   "theorems": [
    "Mcut.Extract.C60_soup",
    "Mcut.Extract.C60_empty_fails",
    "Mcut.Extract.C60_m0",
    "Mcut.Extract.C60_origin_m0",
    "Mcut.Extract.C60_origin_m1",
    "Mcut.Extract.C60_output_m0",
    "Mcut.Extract.C60_face_origin"
   ],
   "note": "merged mesh, tables and first auxiliary meshes for all inputs and thread counts; vertex origins for the extractions from m0 end to end (positions), and for m1 up to what the stitching registers (its entries are a hypothesis); face origins relative to the polygon tracing, which is not modelled; an empty mesh with the thread pool is undefined (C60_empty_fails)"
  },
  {
   "property": "C61",
   "status": "partial",
   "theorems": [
    "Mcut.Pairs.C61_parallel",
    "Mcut.Pairs.C61_sequential",
    "Mcut.Pairs.C61_same",
    "Mcut.Pairs.C61_empty_fails",
    "Mcut.Pairs.C61_simple",
    "Mcut.Pairs.C61_complete",
    "Mcut.Pairs.C61_valid_inputs",
    "Mcut.Pairs.C61_pipeline_partial"
   ],
   "note": "Both implementations succeed and build exactly the edge map (C61_parallel, C61_sequential), so they agree (C61_same); C61_complete: after culling exactly the pairs of an edge and a face of the other mesh with meeting boxes; C61_valid_inputs: the inputs accepted by the loader meet the precondition; C61_pipeline_partial composes it with the broad phase (C36). Missing: meshes above 2^23 faces (the broad phase loses faces, C36_lost_face_fails). C61_empty_fails: no pairs."
  },
  {
   "property": "C62",
   "status": "partial",
   "theorems": [
    "Mcut.Geom.C62_triangle",
    "Mcut.Geom.C62_coplanar",
    "Mcut.Geom.C62_two_triangles",
    "Mcut.Geom.C62_demo",
    "Mcut.Geom.C62_hexagram_fails",
    "Mcut.Geom.C62_face_partial"
   ],
   "note": "C62_triangle, C62_coplanar: exact outcome for triangles; C62_two_triangles: all six tests do nothing iff the triangles are disjoint; C62_hexagram_fails: triangles in one plane; C62_face_partial: polygons with more than three vertices, in terms of the point-in-polygon test. Missing: polygons in general, floating-point rounding, singular projections (C58)."
  },
  {
   "property": "C63",
   "status": "proved",
   "theorems": [
    "Mcut.Registry.C63_sequential",
    "Mcut.Registry.C63_parallel",
    "Mcut.Registry.C63_terminates",
    "Mcut.Registry.C63_unique",
    "Mcut.Registry.C63_points",
    "Mcut.Registry.C63_same",
    "Mcut.Registry.C63_valid"
   ],
   "note": "C63_sequential, C63_parallel: exact tables; C63_same: both variants find the same points; C63_unique, C63_points: each pair once; C63_terminates: progress and a decreasing measure; C63_valid: the candidates that C61 derives from valid inputs meet the hypotheses. The geometric test is a parameter (C62). Vertex counts and 32-bit descriptor arithmetic are not bounded here."
  },
  {
   "property": "C64",
   "status": "partial",
   "theorems": [
    "Mcut.FaceProps.C64_sequential",
    "Mcut.FaceProps.C64_parallel",
    "Mcut.FaceProps.C64_terminates",
    "Mcut.FaceProps.C64_blame_partial",
    "Mcut.FaceProps.C64_first_cut_face_fails",
    "Mcut.FaceProps.C64_running_job_fails",
    "Mcut.FaceProps.C64_triangle"
   ],
   "note": "C64_sequential, C64_parallel, C64_terminates: detection is exact in every execution; C64_triangle: meaning for triangles; C64_blame_partial: right mesh except for one face number. Refuted parts: C64_first_cut_face_fails, C64_running_job_fails. Not covered: meaning of the zero normal for polygons with more than three vertices, rounding."
  },
  {
   "property": "C65",
   "status": "partial",
   "theorems": [
    "Mcut.Geom.C65_cut_edge",
    "Mcut.Geom.C65_demo"
   ],
   "note": "Proved for triangles in exact arithmetic, for faces whose projection to two dimensions is regular (C58 shows the singular case). Missing: polygons with more than three vertices and rounding."
  },
  {
   "property": "C66",
   "status": "partial",
   "theorems": [
    "Mcut.CutEdges.C66_edges",
    "Mcut.CutEdges.C66_degree",
    "Mcut.CutEdges.C66_closed",
    "Mcut.CutEdges.C66_demo"
   ],
   "note": "C66_edges, C66_degree, C66_closed. Missing: pairs of faces with more than two common points (polygons with more than three vertices), where the kernel sorts the points along the line and tests the midpoints; this branch is modelled (link) but not proved about. For triangle meshes without coplanar faces C69 discharges the hypotheses."
  },
  {
   "property": "C67",
   "status": "partial",
   "theorems": [
    "Mcut.CutPaths.C67_sequences",
    "Mcut.CutPaths.C67_curves",
    "Mcut.CutPaths.C67_cut_paths",
    "Mcut.CutPaths.C67_linear_iff",
    "Mcut.CutPaths.C67_demo"
   ],
   "note": "proved for cuts in which every pair of faces with common points has exactly two (C65: triangles in general position) and two faces have at most one common edge; C69 discharges the two-points hypothesis for triangle meshes; missing: pairs with more than two common points (non-convex faces)"
  },
  {
   "property": "C68",
   "status": "partial",
   "theorems": [
    "Mcut.Floating.C68_floating",
    "Mcut.Floating.C68_detected",
    "Mcut.Floating.C68_demo"
   ],
   "note": "proved for cuts in which every pair of faces with common points has exactly two (C65: triangles in general position) and two faces have at most one common edge; the normal of the polygon is not modelled; C69 discharges the two-points hypothesis for triangle meshes; missing: pairs with more than two common points"
  },
  {
   "property": "C69",
   "status": "partial",
   "theorems": [
    "Mcut.Whole.C69_pairs",
    "Mcut.Whole.C69_intersection",
    "Mcut.Whole.C69_violation",
    "Mcut.Whole.C69_disjoint",
    "Mcut.Whole.C69_cut",
    "Mcut.Whole.C69_demo"
   ],
   "note": "proved for triangle meshes with exact arithmetic, for faces whose projection is regular (C58), and face boxes given by C36/C37; it discharges for such meshes the two-points hypotheses of C66-C68; missing: faces with more than three corners, rounding, coplanar faces (C62_hexagram_fails)"
  },
  {
   "property": "C70",
   "status": "partial",
   "theorems": [
    "Mcut.Boundary.C70_sequential",
    "Mcut.Boundary.C70_parallel",
    "Mcut.Boundary.C70_ready",
    "Mcut.Boundary.C70_sort",
    "Mcut.Boundary.C70_triangles",
    "Mcut.Boundary.C70_demo"
   ],
   "note": "proved from the result of C66 (C70_ready), for triangle meshes in general position with exact arithmetic without further hypotheses on the points (C70_triangles); missing: pairs of faces with more than two points; accesses to the hash maps are atomic in the model: a worker may look up a face while the master inserts into lists of the same map (no key is added, as C70 shows)"
  },
  {
   "property": "C71",
   "status": "partial",
   "theorems": [
    "Mcut.Trace.C71_face_partial",
    "Mcut.Trace.C71_sequential_partial",
    "Mcut.Trace.C71_parallel",
    "Mcut.Trace.C71_given",
    "Mcut.Trace.C71_demo",
    "Mcut.Trace.C71_order_fails",
    "Mcut.Trace.C71_slit_fails"
   ],
   "note": "C71_face_partial, C71_sequential_partial and C71_parallel are proved from what C66 and C70 establish (C71_given); that no two edges have the same ends is C72_soup. Missing: faces with an edge that has several points (C71_order_fails shows the search then depends on the order std::partition leaves and may dereference an end iterator), cut edges not connected with the boundary of their face (C71_slit_fails), pairs of faces with more than two points"
  },
  {
   "property": "C72",
   "status": "proved",
   "theorems": [
    "Mcut.Hmesh.C72_simple",
    "Mcut.Hmesh.C72_lookup",
    "Mcut.Hmesh.C72_loaded",
    "Mcut.Hmesh.C72_soup",
    "Mcut.Hmesh.C72_add_edge_fails",
    "Mcut.Hmesh.C72_demo"
   ],
   "note": "C72_simple, C72_lookup, C72_loaded, C72_soup; C72_add_edge_fails shows that add_edge itself does not check"
  },
  {
   "property": "C73",
   "status": "partial",
   "theorems": [
    "Mcut.Trace.C73_table",
    "Mcut.Trace.C73_used_partial",
    "Mcut.Trace.C73_parts",
    "Mcut.Trace.C73_two_faces",
    "Mcut.Trace.C73_demo",
    "Mcut.Trace.C73_range_fails"
   ],
   "note": "C73_used_partial (from what C66, C70 establish, C71_given), C73_two_faces (the two faces of a cut edge), C73_parts, C73_table. Missing: faces with an edge that has several points (C71_order_fails), pairs of faces with more than two common points"
  },
  {
   "property": "C74",
   "status": "partial",
   "theorems": [
    "Mcut.Trace.C74_source_partial",
    "Mcut.Trace.C74_cut_partial",
    "Mcut.Trace.C74_simple_partial",
    "Mcut.Trace.C74_one_piece",
    "Mcut.Trace.C74_triangle",
    "Mcut.Trace.C74_seamed_partial",
    "Mcut.Trace.C74_off",
    "Mcut.Trace.C74_allowed",
    "Mcut.Trace.C74_demo"
   ],
   "note": "C74_seamed_partial composes all earlier stages; C74_source_partial, C74_cut_partial (any polygons without repeated vertices), C74_simple_partial (no repeated vertex), C74_one_piece, C74_triangle (triangles cannot cross themselves), C74_allowed, C74_off. Missing: faces with an edge that has several points, cut edges that do not divide the face cleanly (dead ends, holes; then a polygon may pass through a vertex twice), pairs of faces with more than two common points"
  },
  {
   "property": "C75",
   "status": "partial",
   "theorems": [
    "Mcut.Winding.C75_ray",
    "Mcut.Winding.C75_generic",
    "Mcut.Winding.C75_test",
    "Mcut.Winding.C75_path",
    "Mcut.Winding.C75_one_vertex",
    "Mcut.Winding.C75_box",
    "Mcut.Winding.C75_parallel",
    "Mcut.Winding.C75_inside_cut",
    "Mcut.Winding.C75_inside_source_partial",
    "Mcut.Winding.C75_smaller",
    "Mcut.Winding.C75_not_standard",
    "Mcut.Winding.C75_neither_partial",
    "Mcut.Winding.C75_none",
    "Mcut.Winding.C75_enclosed_missed_fails"
   ],
   "note": "C75_ray (winding number = signed count of crossings of every generic ray), C75_generic (such rays exist), C75_test, C75_path, C75_one_vertex, C75_box, C75_parallel, C75_inside_cut (both directions), C75_inside_source_partial and C75_neither_partial (if both meshes are watertight, only if the source box is larger than the enlarged cut box), C75_smaller (what happens otherwise), C75_enclosed_missed_fails (an enclosed cut mesh reported as NONE), C75_none, C75_not_standard. Exact real arithmetic; a quadrilateral counts as the hull of its corners; the triangulation of larger faces is a parameter required to divide the face. Missing: rounding, and enclosure of the cut mesh when its enlarged box is not smaller (false there)"
  },
  {
   "property": "C76",
   "status": "partial",
   "theorems": [
    "Mcut.Trace.C76_sides_partial",
    "Mcut.Trace.C76_below_partial",
    "Mcut.Trace.C76_crossing",
    "Mcut.Trace.C76_triangles_partial",
    "Mcut.Trace.C76_demo",
    "Mcut.Trace.C76_below_missed_fails"
   ],
   "note": "C76_sides_partial (the two lists, for any sign test that decides whether an edge passes down), C76_below_partial (both lists exact when no polygon is on both sides), C76_crossing (its hypotheses follow from the earlier stages), C76_triangles_partial (triangle meshes in general position with the actual sign test, in exact arithmetic), C76_demo, C76_below_missed_fails (a polygon below that is not recorded). Missing: edges with several intersection points; rounding of the scalar product; that the later stages use the two lists as intended (kernel.cpp:620-660)"
  },
  {
   "property": "C77",
   "status": "partial",
   "theorems": [
    "Mcut.Split.C77_split_partial",
    "Mcut.Split.C77_faces_partial",
    "Mcut.Split.C77_cut_in",
    "Mcut.Split.C77_triangles_partial",
    "Mcut.Split.C77_anchored",
    "Mcut.Split.C77_demo",
    "Mcut.Split.C77_middle_fails"
   ],
   "note": "C77_split_partial (any faces, for polygons in which a walk can begin), C77_faces_partial (triangles with an edge without points), C77_triangles_partial (composed with the earlier stages for triangle meshes in general position, exact arithmetic), C77_cut_in, C77_anchored, C77_demo, C77_middle_fails (an exception for the middle part of a quadrangle). Missing: edges with several intersection points; cut edges not connected with the boundary of their face (holes); triangles with intersection points on all three edges (open cut meshes)"
  },
  {
   "property": "C78",
   "status": "partial",
   "theorems": [
    "Mcut.Split.C78_no_loose",
    "Mcut.Split.C78_loaded",
    "Mcut.Split.C78_soup",
    "Mcut.Split.C78_fragments_partial",
    "Mcut.Split.C78_off",
    "Mcut.Split.C78_location",
    "Mcut.Split.C78_demo"
   ],
   "note": "C78_fragments_partial (composed with all earlier stages), C78_no_loose, C78_loaded, C78_soup (the meshes concerned), C78_off, C78_location, C78_demo (two pyramids: two fragments). Missing: edges with several intersection points, cuts inside a face (holes), polygons in which no walk can begin; that each fragment contains a polygon recorded as above or below is a hypothesis (without it the code throws, C59_unmarked_throws)"
  },
  {
   "property": "C79",
   "status": "partial",
   "theorems": [
    "Mcut.Patches.C79_patches_partial",
    "Mcut.Patches.C79_ends",
    "Mcut.Patches.C79_demo"
   ],
   "note": "C79_patches_partial (composed with all earlier stages), C79_ends, C79_demo (a pyramid cut into two patches). Missing: edges with several intersection points, cuts inside a face (holes)"
  },
  {
   "property": "C80",
   "status": "partial",
   "theorems": [
    "Mcut.Patches.C80_places_partial",
    "Mcut.Patches.C80_two_components_fails",
    "Mcut.Patches.C80_demo"
   ],
   "note": "C80_places_partial (composed with all earlier stages), C80_two_components_fails (without connectedness), C80_demo. Missing: edges with several intersection points, cuts inside a face; that the sides given by geometry are TwoSided is a hypothesis"
  },
  {
   "property": "C81",
   "status": "partial",
   "theorems": [
    "Mcut.Patches.C81_patches_partial",
    "Mcut.Patches.C81_pairs",
    "Mcut.Patches.C81_demo"
   ],
   "note": "C81_patches_partial (composed with all earlier stages), C81_pairs, C81_demo. Missing: edges with several intersection points, cuts inside a face; the users of the reversed halfedges (m0_h_to_ply) are modelled but nothing is stated about them; the parallel map filling is taken to be the sequential one (disjoint writes)"
  },
  {
   "property": "C82",
   "status": "partial",
   "theorems": [
    "Mcut.Origin.C82_seams_partial",
    "Mcut.Origin.C82_fragments_partial",
    "Mcut.Origin.C82_patches_partial",
    "Mcut.Origin.C82_triangles",
    "Mcut.Origin.C82_client_partial",
    "Mcut.Origin.C82_demo"
   ],
   "note": "C82_seams_partial, C82_fragments_partial, C82_patches_partial (composed with all earlier stages), C82_triangles, C82_client_partial, C82_demo. Missing: sealed fragments; edges with several intersection points where C71 and C73 need them, cuts inside a face"
  },
  {
   "property": "C83",
   "status": "partial",
   "theorems": [
    "Mcut.Stitch.C83_stitched_partial",
    "Mcut.Stitch.C83_demo",
    "Mcut.Stitch.C83_vertex_map_fails"
   ],
   "note": "C83_stitched_partial (composed with all earlier stages), C83_demo; C83_vertex_map_fails shows that the vertex map of a sealed fragment lacks entries. Missing: partial cuts (vertices that are not duplicated, 8244-8516), and what C77 and C80 assume"
  },
  {
   "property": "C84",
   "status": "partial",
   "theorems": [
    "Mcut.Stitch.C84_sealed_partial",
    "Mcut.Stitch.C84_demo"
   ],
   "note": "C84_sealed_partial, composed with all earlier stages from the two client meshes on; C84_demo: two tetrahedra, for which the sealed fragments are watertight. Missing: partial cuts, what C77 and C80 assume of the cut, and vertices of patches for which the code has no map entry (C83_vertex_map_fails)"
  },
  {
   "property": "C85",
   "status": "partial",
   "theorems": [
    "Mcut.Cdt.C85_insert_partial",
    "Mcut.Cdt.C85_possible",
    "Mcut.Cdt.C85_super",
    "Mcut.Cdt.C85_demo",
    "Mcut.Cdt.C85_super_demo"
   ],
   "note": "C85_insert_partial, with C85_super: the enclosing triangle of the code is large enough. Exact arithmetic. Missing: the empty-circle property, the search (walk_triangles, kd-tree) itself, which is any function here"
  },
  {
   "property": "C86",
   "status": "proved",
   "theorems": [
    "Mcut.Cdt.C86_erase",
    "Mcut.Cdt.C86_demo"
   ],
   "note": "C86_erase. Exact arithmetic. The triangulation is any that meets C85's specification; C86_demo runs insert_vertices, insert_edges (of edges that are already present) and erase_outer_triangles on an L-shaped face"
  },
  {
   "property": "C87",
   "status": "proved",
   "theorems": [
    "Mcut.Cdt.C87_tiles",
    "Mcut.Cdt.C87_insert_partial",
    "Mcut.Cdt.C87_insert_succeeds_partial",
    "Mcut.Cdt.C87_demo"
   ],
   "note": "C87_tiles. Exact arithmetic; the triangulation is any that meets C85's specification and has the outline as fixed edges. C87_insert_partial and C87_insert_succeeds_partial: insert_edges gives exactly these fixed edges when no edge has to be forced in (forcing an edge in is not modelled). C87_demo is an L-shaped face"
  },
  {
   "property": "C88",
   "status": "partial",
   "theorems": [
    "Mcut.Cdt.C88_emit_partial",
    "Mcut.Cdt.C88_demo",
    "Mcut.Cdt.C88_chord_fails"
   ],
   "note": "C88_emit_partial. Exact arithmetic. The hypothesis on chords is needed: C88_chord_fails is a quad whose neighbours share the diagonal, and it disappears from the output. C88_demo is the L-shaped face with six neighbours"
  },
  {
   "property": "C89",
   "status": "partial",
   "theorems": [
    "Mcut.Cdt.C89_face_partial",
    "Mcut.Cdt.C89_flat_demo",
    "Mcut.Cdt.C89_demo"
   ],
   "note": "C89_face_partial. Exact arithmetic with square roots; edges that have to be forced through the triangulation are not modelled (for corners at the same place see C91), and neighbours must have no other edge between two corners of the face (C88). C89_flat_demo meets the hypotheses over the real numbers, C89_demo computes an example"
  },
  {
   "property": "C90",
   "status": "partial",
   "theorems": [
    "Mcut.Cdt.C90_any_partial",
    "Mcut.Cdt.C90_component_partial",
    "Mcut.Cdt.C90_copy_partial",
    "Mcut.Cdt.C90_demo",
    "Mcut.Cdt.C90_copy_demo"
   ],
   "note": "C90_component_partial, composed of C89 (each face) and C24 (threads). Same limits as C89; a face without any neighbour can get the opposite orientation (C88). C90_any_partial: faces that are not flat or have corners at the same place, if they are not skipped. C90_copy_partial: the same for every mesh that the kernel puts out as a copy of polygons (CopyOf of C59, C74, C78, C81, C84). C90_demo, C90_copy_demo: an L-shaped face with six triangles"
  },
  {
   "property": "C91",
   "status": "partial",
   "theorems": [
    "Mcut.Cdt.C91_find",
    "Mcut.Cdt.C91_partner",
    "Mcut.Cdt.C91_one_tie",
    "Mcut.Cdt.C91_face_partial",
    "Mcut.Cdt.C91_demo",
    "Mcut.Cdt.C91_pairs_fails"
   ],
   "note": "C91_find, C91_partner, C91_one_tie, C91_face_partial. Exact arithmetic; missing as in C89 (edges that have to be forced), and a corner that is moved to 'not a number' ends the model. C91_pairs_fails: a triangle with two doubled corners. C91_demo: a triangle with a slit"
  },
  {
   "property": "C92",
   "status": "partial",
   "theorems": [
    "Mcut.Inner.C92_border",
    "Mcut.Inner.C92_ordered_partial",
    "Mcut.Inner.C92_single",
    "Mcut.Inner.C92_demo",
    "Mcut.Inner.C92_skips_fails",
    "Mcut.Inner.C92_ordered_demo",
    "Mcut.Inner.C92_traced_partial",
    "Mcut.Inner.C92_recorded_partial",
    "Mcut.Inner.C92_traced_demo",
    "Mcut.Inner.C92_corner_fails"
   ],
   "note": "C92_border: termination, soundness, completeness for the last entry point in the queue; C92_single: and for a single one; C92_ordered_partial: for all, if the polygons come in the order of the entry points; C92_traced_partial: composed with the tracing of the polygons (C71, C73), which gives the surface that C92_border assumes; C92_recorded_partial: and with the entry points recorded in C63. C92_skips_fails, C92_corner_fails: the claim for all entry points is false (the search takes any point of the queue, what is removed is the front), already for a cut mesh of one triangle with one corner in the source mesh. Limits of C71 (edges with several intersection points). C92_demo, C92_traced_demo: a fan of two triangles; a corner of a pyramid without its base pierces a triangle"
  },
  {
   "property": "C93",
   "status": "partial",
   "theorems": [
    "Mcut.CutEdges.C93_permutation",
    "Mcut.CutEdges.C93_order",
    "Mcut.CutEdges.C93_edges",
    "Mcut.CutEdges.C93_segments",
    "Mcut.CutEdges.C93_degree",
    "Mcut.CutEdges.C93_closed",
    "Mcut.CutEdges.C93_demo",
    "Mcut.CutEdges.C93_even_odd_demo"
   ],
   "note": "C93_permutation, C93_order: the sorting; C93_edges: the stage for any order and any test of the middle; C93_segments: both composed, the edges are the segments between neighbours in space; C93_degree, C93_closed: the degrees, if the test follows the even-odd rule along the line (EvenOdd; the border of each face crosses the line at any even number of places, also outside of the other face). Exact arithmetic; the answer of compute_point_in_polygon_test is a parameter (C22 is about it); faces with two common edges are excluded. C93_demo: a U and a triangle, with the test of the code; C93_even_odd_demo: they meet EvenOdd with the test of the code, for every middle"
  },
  {
   "property": "C94",
   "status": "partial",
   "theorems": [
    "Mcut.PlanarSection.C94_offset_fails",
    "Mcut.PlanarSection.C94_check_fails",
    "Mcut.PlanarSection.C94_plane_partial",
    "Mcut.PlanarSection.C94_missed_fails",
    "Mcut.PlanarSection.C94_defined",
    "Mcut.PlanarSection.C94_axis_fails",
    "Mcut.PlanarSection.C94_demo",
    "Mcut.PlanarSection.C94_size_partial",
    "Mcut.PlanarSection.C94_small_fails"
   ],
   "note": "C94_plane_partial: the triangle is orthogonal to the normal, in the plane through the origin (the plane that was asked for is missed); C94_defined: exactly the normals along a negative axis fail. Counterexamples to the full statement: C94_offset_fails, C94_missed_fails, C94_axis_fails, C94_check_fails, C94_small_fails. C94_size_partial: the part of the plane that the triangle does contain. C94_demo: a box. Exact arithmetic, any square root function that is exact"
  }
 ]
}