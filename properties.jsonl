{"id": "C01", "title": "Handles are unique and non-null", "statement": "Every handle returned by mcCreateContext*, mcEnqueue*/mcCreateUserEvent or mcGetConnectedComponents is non-null and differs from every handle of any kind handed out earlier, including handles of already released objects; a lookup with a handle therefore finds the object it was issued for or nothing.", "quantifier": "all interleaved histories of object creation and release, over contexts, events and connected components", "why_tests_cant": "a test sees a handful of histories; reuse after release or collision across object kinds depends on the whole history", "anchors": ["source/frontend.cpp: g_objects_counter, create_context_impl, create_user_event_impl", "include/mcut/internal/frontend.h: context_t::prepare_and_submit_API_task", "source/preproc.cpp: preproc"]}
{"id": "C02", "title": "Version number packing is lossless", "statement": "For version components within their bit fields, MC_VERSION_MAJOR/MINOR/PATCH recover exactly the components given to MC_MAKE_VERSION, and packing is strictly monotone in lexicographic version order.", "quantifier": "all major < 2^10, minor < 2^10, patch < 2^12", "why_tests_cant": "2^32 combinations", "anchors": ["include/mcut/mcut.h: MC_MAKE_VERSION, MC_VERSION_MAJOR, MC_VERSION_MINOR, MC_VERSION_PATCH"]}
{"id": "C03", "title": "mcDebugMessageControl changes exactly the selected filter bits", "statement": "An accepted mcDebugMessageControl(source,type,severity,enabled) call enables (or disables) exactly the listed sources, types and severities and leaves all other filter bits unchanged; the resulting filter is the last writer for every bit.", "quantifier": "all filter states and all argument masks, and all sequences of calls", "why_tests_cant": "the filter is the fold of an arbitrary call history over arbitrary masks", "anchors": ["source/frontend.cpp: debug_message_control_impl, trailing_zeroes, set_bit, clear_bit", "source/mcut.cpp: mcDebugMessageControl"]}
{"id": "C04", "title": "Debug messages are delivered iff enabled, and to exactly one sink", "statement": "A message with given source/type/severity is delivered exactly when the context was created with MC_DEBUG and its source, type and severity are all enabled; it then goes to the registered callback if there is one and is otherwise appended to the internal log; otherwise nothing observable happens.", "quantifier": "all contexts, filter states, messages and message histories", "why_tests_cant": "combinations of flags, filters, callbacks and histories cannot be enumerated", "anchors": ["include/mcut/internal/frontend.h: context_t::dbg_cb, set_debug_callback_data"]}
{"id": "C05", "title": "mcGetDebugMessageLog returns a prefix of the log that fits, never overruns bufSize, and is repeatable", "statement": "The call returns the number of messages written; those are the oldest messages in order, at most count of them, their total length is at most bufSize, the prefix is maximal under these limits, and the log itself is not changed.", "quantifier": "all logs, counts and buffer sizes", "why_tests_cant": "buffer-size boundaries interact with every possible list of message lengths", "anchors": ["source/frontend.cpp: get_debug_message_log_impl", "source/mcut.cpp: mcGetDebugMessageLog"]}
{"id": "C06", "title": "mcBindState/mcGetInfo round trip and rejection atomicity", "statement": "After a successful mcBindState of a state, mcGetInfo of that state returns the bound value until the next successful bind of the same state; a rejected bind changes nothing; accepted values always lie in the documented domain.", "quantifier": "all call histories over all states and all values (including NaN)", "why_tests_cant": "history-dependent and over all float values", "anchors": ["source/mcut.cpp: mcBindState, mcGetInfo", "source/frontend.cpp: bind_state_impl, get_info_impl"]}
{"id": "C07", "title": "mcGetInfo never writes more than the caller's bytes", "statement": "With a non-null destination of `bytes` bytes, mcGetInfo either fails or writes at most `bytes` bytes; with a null destination it reports the exact size that a following call needs.", "quantifier": "all info flags, byte counts and pointer combinations", "why_tests_cant": "memory-safety over all sizes", "anchors": ["source/mcut.cpp: mcGetInfo", "source/frontend.cpp: get_info_impl"]}
{"id": "C08", "title": "Event command status only advances", "statement": "The execution status of an event reported by mcGetEventInfo only moves forward SUBMITTED -> RUNNING -> COMPLETE (never backwards, never skipping back), and once COMPLETE it stays COMPLETE with a fixed runtime result.", "quantifier": "all interleavings of task execution, user-event signalling and queries", "why_tests_cant": "the status is written by other threads at arbitrary times", "anchors": ["include/mcut/internal/frontend.h: event_t::log_submit, log_start_time, log_end, notify_task_complete", "source/frontend.cpp: get_event_info_impl"]}
{"id": "C09", "title": "An event callback runs exactly once per registration", "statement": "For every callback registered with mcSetEventCallback before or after completion, the callback runs at most once, exactly once if the command completes and the registration was not superseded, and it never runs before the command has finished.", "quantifier": "all interleavings of registration, re-registration, completion and release", "why_tests_cant": "the race between completion and registration has schedule-dependent outcomes", "anchors": ["include/mcut/internal/frontend.h: event_t::set_callback_data, notify_task_complete, ~event_t", "source/frontend.cpp: set_event_callback_impl"]}
{"id": "C10", "title": "Wait lists gate execution", "statement": "The work of an enqueued command starts only after every event in its wait list has completed, and is not executed at all if any of them completed with an error.", "quantifier": "all dependency graphs and all schedules of manager threads", "why_tests_cant": "schedules and graphs are unbounded", "anchors": ["include/mcut/internal/frontend.h: context_t::prepare_and_submit_API_task", "source/frontend.cpp: wait_for_events_impl"]}
{"id": "C11", "title": "Failure of a dependency is visible on dependants", "statement": "If a command is skipped because a wait-list event failed, the skipped command's own event reports an error (so that a caller waiting on it learns of the failure).", "quantifier": "all dependency chains", "why_tests_cant": "chains of arbitrary depth; depends on how skipped tasks mark their events", "anchors": ["include/mcut/internal/frontend.h: context_t::prepare_and_submit_API_task, event_t::notify_task_complete", "source/mcut.cpp: mcWaitForEvents"]}
{"id": "C12", "title": "mcWaitForEvents reports the first failure", "statement": "mcWaitForEvents returns MC_NO_ERROR iff every listed event exists and completed without error; otherwise it returns an error determined by the first offending event in list order.", "quantifier": "all event lists and completion states", "why_tests_cant": "arbitrary lists", "anchors": ["source/mcut.cpp: mcWaitForEvents", "source/frontend.cpp: wait_for_events_impl"]}
{"id": "C13", "title": "User events: one-shot signalling with validated status", "statement": "mcSetUserEventStatus succeeds at most once per user event; accepted statuses are exactly MC_EVENT_COMMAND_EXEC_STATUS_COMPLETE and the documented error codes; a failed call changes nothing observable.", "quantifier": "all sequences of status calls on a user event", "why_tests_cant": "repeat and invalid-status histories", "anchors": ["source/frontend.cpp: set_user_event_status_impl, create_user_event_impl"]}
{"id": "C14", "title": "Commands of an in-order context execute in submission order", "statement": "In a context created without out-of-order execution, commands execute one at a time in exactly the order in which they were enqueued; with out-of-order execution this still holds for all commands that share a manager queue, and the chosen queue index is always valid.", "quantifier": "all submission histories and all thread schedules", "why_tests_cant": "schedules", "anchors": ["include/mcut/internal/frontend.h: context_t::context_t, api_thread_main, prepare_and_submit_API_task"]}
{"id": "C15", "title": "The work queue is a FIFO without loss or duplication", "statement": "Any concurrent history of pushes and pops on the thread-safe queue is equivalent to a sequential FIFO: every popped element was pushed, in push order, at most once; try_pop on an empty queue fails without effect.", "quantifier": "all operation sequences", "why_tests_cant": "concurrent histories", "anchors": ["include/mcut/internal/tpool.h: thread_safe_queue"]}
{"id": "C16", "title": "The object tables behave as sets keyed by handle", "statement": "Adding, finding and removing objects in the global context/event tables and a context's component table behaves as an abstract finite map: a handle is found iff it was added and not removed since, and removal affects only matching objects.", "quantifier": "all operation sequences", "why_tests_cant": "histories", "anchors": ["include/mcut/internal/tpool.h: threadsafe_list"]}
{"id": "C17", "title": "Parallel loops partition their range", "statement": "For every non-empty range, thread count and minimum block size the scheduler's blocks are contiguous, disjoint, in bounds, non-empty and cover the range exactly once, using no more threads than available.", "quantifier": "all lengths, available thread counts and minimum block sizes", "why_tests_cant": "arithmetic over all sizes (boundary blocks)", "anchors": ["include/mcut/internal/tpool.h: get_scheduling_parameters, parallel_for"]}
{"id": "C18", "title": "Parallel prefix sums equal sequential prefix sums", "statement": "parallel_partial_sum leaves in place exactly the inclusive prefix sums of the input, whatever the number of worker threads and block size.", "quantifier": "all inputs, all thread counts", "why_tests_cant": "block boundaries and carries", "anchors": ["include/mcut/internal/tpool.h: parallel_partial_sum, partial_sum"]}
{"id": "C19", "title": "Parallel search finds an element iff one exists", "statement": "parallel_find/parallel_find_if return an iterator to a matching element if one exists and the end iterator otherwise, regardless of the block structure.", "quantifier": "all inputs, predicates, thread counts and completion orders", "why_tests_cant": "schedules", "anchors": ["include/mcut/internal/tpool.h: parallel_find_if, find_if, find_map_element_by_key"]}
{"id": "C20", "title": "mcGetConnectedComponents enumerates exactly the matching components", "statement": "The count query returns the number of components whose type is in the mask; a fill call writes the handles of the first min(numEntries, count) matching components in the same order and nothing else.", "quantifier": "all component tables, masks and capacities", "why_tests_cant": "unbounded tables", "anchors": ["source/frontend.cpp: get_connected_components_impl", "source/mcut.cpp: mcEnqueueGetConnectedComponents"]}
{"id": "C21", "title": "Size query then full copy returns the whole data array", "statement": "For every component data flag valid for the component, querying the size and then calling again with that size writes exactly that many bytes holding the complete array (vertices, faces, sizes, edges, adjacency, seam vertices, maps).", "quantifier": "all components, flags and worker-thread counts", "why_tests_cant": "unbounded meshes, block boundaries", "anchors": ["source/frontend.cpp: get_connected_component_data_impl_detail"]}
{"id": "C22", "title": "A data query never writes beyond the caller's buffer", "statement": "With a destination of `bytes` bytes a data query either fails or writes only inside the first `bytes` bytes.", "quantifier": "all flags, components, byte counts and worker-thread counts", "why_tests_cant": "memory safety over all sizes and block structures", "anchors": ["source/frontend.cpp: get_connected_component_data_impl_detail"]}
{"id": "C23", "title": "Reversed winding order reverses every face and nothing else", "statement": "With MC_CONNECTED_COMPONENT_FACE_WINDING_ORDER_REVERSED bound, face data equals the default data with each face's vertex list reversed in place; face sizes, adjacency and face order are unchanged.", "quantifier": "all meshes and thread counts", "why_tests_cant": "unbounded meshes", "anchors": ["source/frontend.cpp: get_connected_component_data_impl_detail (MC_CONNECTED_COMPONENT_DATA_FACE, MC_CONNECTED_COMPONENT_DATA_FACE_TRIANGULATION)"]}
{"id": "C24", "title": "Triangulation and its face map correspond under every schedule", "statement": "However the triangulating threads interleave, the returned index array is a permutation by whole blocks of the per-face triangles and entry k of the triangulation map names the input face of triangle k.", "quantifier": "all meshes, block structures and interleavings", "why_tests_cant": "the write offsets are allocated by a race", "anchors": ["source/frontend.cpp: get_connected_component_data_impl_detail (MC_CONNECTED_COMPONENT_DATA_FACE_TRIANGULATION, _MAP)"]}
{"id": "C25", "title": "Triangulation map can be queried in any order", "statement": "Querying MC_CONNECTED_COMPONENT_DATA_FACE_TRIANGULATION_MAP works whether or not the triangulation itself was queried first.", "quantifier": "all query orders", "why_tests_cant": "history-dependent caches", "anchors": ["source/frontend.cpp: get_connected_component_data_impl_detail (MC_CONNECTED_COMPONENT_DATA_FACE_TRIANGULATION_MAP)"]}
{"id": "C26", "title": "Vertex maps point to the right client vertices", "statement": "Each vertex-map entry is either undefined (intersection point or vertex created by face partitioning) or a client index below (source+cut) vertex count that denotes the client vertex the internal vertex stems from; source vertices map below the source count, cut vertices at or above it; the map is injective on original vertices.", "quantifier": "all components and all partitioning histories", "why_tests_cant": "index arithmetic over all counts", "anchors": ["source/frontend.cpp: get_connected_component_data_impl_detail (MC_CONNECTED_COMPONENT_DATA_VERTEX_MAP)", "source/preproc.cpp: preproc"]}
{"id": "C27", "title": "Face maps point to the right client faces", "statement": "Each face-map entry is the client face from which the internal face was born (through any number of partitionings): source faces map below the source face count, cut faces at or above it.", "quantifier": "all components and partitioning histories", "why_tests_cant": "index arithmetic over all counts and histories", "anchors": ["source/frontend.cpp: map_internal_inputmesh_face_idx_to_user_inputmesh_face_idx", "source/preproc.cpp: resolve_floating_polygons"]}
{"id": "C28", "title": "Release calls free exactly the named objects", "statement": "mcReleaseEvents, mcReleaseConnectedComponents and mcReleaseContext remove exactly the listed objects; an unknown handle yields MC_INVALID_VALUE; released handles are never found again; other objects are untouched.", "quantifier": "all tables and handle lists", "why_tests_cant": "histories; partial failure in the middle of a list", "anchors": ["source/frontend.cpp: release_events_impl, release_connected_components_impl, release_context_impl"]}
{"id": "C29", "title": "Halfedge meshes stay consistent under every edit history", "statement": "After any sequence of accepted vertex/edge/face insertions and removals, opposite halfedges pair up, every halfedge of a face has its successor and predecessor in the same face, sources and targets chain up, and no halfedge belongs to two faces.", "quantifier": "all histories of accepted insertions and removals, any length, arbitrary vertex lists", "why_tests_cant": "unbounded edit histories", "anchors": ["source/hmesh.cpp: hmesh_t::add_vertex, add_edge, add_face", "include/mcut/internal/hmesh.h"]}
{"id": "C30", "title": "A face reads back the vertices it was created with", "statement": "After a successful face insertion the vertices around the new face are the given vertices in the same cyclic order, and all previously existing faces still read back unchanged.", "quantifier": "all meshes and vertex lists", "why_tests_cant": "unbounded", "anchors": ["source/hmesh.cpp: hmesh_t::add_face, get_vertices_around_face, get_halfedges_around_face"]}
{"id": "C31", "title": "A rejected face leaves the mesh unchanged", "statement": "If inserting a face is refused (non-manifold edge), no existing or later query can tell that the attempt was made.", "quantifier": "all meshes and vertex lists", "why_tests_cant": "partial mutation before the failure is detected depends on which edge conflicts", "anchors": ["source/hmesh.cpp: hmesh_t::add_face, is_insertable"]}
{"id": "C32", "title": "Removal and descriptor reuse are coherent", "statement": "Counts equal the number of live elements, removed elements are never enumerated, a new element never takes a live descriptor, and reuse is oldest-removed-first.", "quantifier": "all add/remove histories", "why_tests_cant": "histories", "anchors": ["source/hmesh.cpp: hmesh_t::remove_vertex, remove_edge, remove_face, number_of_*", "include/mcut/internal/hmesh.h: iterators"]}
{"id": "C33", "title": "Input arrays are accepted iff they describe a valid polygon mesh", "statement": "mcDispatch accepts a face array iff each face has at least three in-range, pairwise distinct vertices and no directed edge is used by two faces; the accepted mesh has the faces in user order, independent of the number of worker threads.", "quantifier": "all input arrays and thread counts", "why_tests_cant": "unbounded inputs; block-parallel validation", "anchors": ["source/preproc.cpp: client_input_arrays_to_hmesh"]}
{"id": "C34", "title": "Input meshes with several connected components are rejected", "statement": "The connectivity check computes exactly the number of connected components of the mesh's vertex graph (every vertex gets the id of its component), and a mesh is accepted iff that number is one (and it has at least three vertices and a face).", "quantifier": "all meshes", "why_tests_cant": "graph property over all meshes", "anchors": ["source/kernel.cpp: find_connected_components", "source/preproc.cpp: check_input_mesh"]}
{"id": "C35", "title": "Bounding-volume tree layout is a bijection", "statement": "For every face count the compact tree layout assigns to each real node a distinct in-range slot, and level sizes, parents and children agree with the implicit numbering.", "quantifier": "all face counts (32-bit range), including those where float index arithmetic rounds", "why_tests_cant": "index arithmetic over all counts", "anchors": ["source/bvh.cpp: get_ostensibly_implicit_bvh_size, get_node_mem_index, get_level_rightmost_real_node, next_power_of_two, ilog2"]}
{"id": "C36", "title": "Broad phase reports exactly the overlapping face pairs", "statement": "Traversing the two trees reports every pair of source/cut faces whose bounding boxes overlap, no other pair, each exactly once and symmetrically with the cut-face offset.", "quantifier": "all pairs of box sets", "why_tests_cant": "recursive traversal over all trees", "anchors": ["source/bvh.cpp: build_oibvh, intersectOIBVHs", "include/mcut/internal/math.h: intersect_bounding_boxes"]}
{"id": "C37", "title": "Bounding boxes are least upper bounds independent of merge order", "statement": "A box grown from points/boxes contains all of them, is contained in every box that does, does not depend on the order of merging, and boxes that share a point are reported as intersecting.", "quantifier": "all point sets, merge orders and block structures", "why_tests_cant": "order independence over all schedules", "anchors": ["include/mcut/internal/math.h: bounding_box_t, intersect_bounding_boxes", "source/bvh.cpp: build_oibvh"]}
{"id": "C38", "title": "Perturbation attempts are bounded and failure is reported", "statement": "A dispatch perturbs the cut mesh at most as often as the configured number of attempts; it fails with MC_INVALID_OPERATION if the intersection is still degenerate (or at once when enforcement is off), and the reported perturbation vector is zero iff no perturbation was applied.", "quantifier": "all kernel outcome sequences", "why_tests_cant": "outcome sequences are unbounded", "anchors": ["source/preproc.cpp: preproc"]}
{"id": "C39", "title": "Dispatch filters keep exactly the requested component kinds", "statement": "With no filter flag all component kinds are computed; with filter flags exactly the kinds named by the flags are kept.", "quantifier": "all 32-bit dispatch flags", "why_tests_cant": "2^32 flag words", "anchors": ["source/preproc.cpp: preproc", "include/mcut/mcut.h: McDispatchFlags"]}
{"id": "C40", "title": "Components stored by a dispatch", "statement": "A successful dispatch adds exactly one component per kernel output mesh plus one per input mesh, with type, location and origin tags matching the kernel classification, and MC_CONTEXT_DISPATCH_INTERSECTION_TYPE is STANDARD iff some component beyond the two inputs exists.", "quantifier": "all kernel outputs", "why_tests_cant": "unbounded outputs", "anchors": ["source/preproc.cpp: preproc, convert, check_and_store_input_mesh_intersection_type"]}
{"id": "C41", "title": "Segment/segment classification is geometrically right", "statement": "In exact arithmetic the classification returned for two segments ('1' proper crossing, 'v' endpoint touch, 'e' collinear overlap, '0' disjoint) matches the set of shared points, and the returned point lies on both lines.", "quantifier": "all rational coordinates", "why_tests_cant": "continuous domain", "anchors": ["source/math.cpp: compute_segment_intersection, Parallellnt, Between"]}
{"id": "C42", "title": "Segment/plane classification is geometrically right", "statement": "In exact arithmetic the code returned for a segment and plane ('p','q','r','0','1') matches the sign pattern of the endpoints and the computed point lies on the plane and on the segment's line.", "quantifier": "all rational coordinates", "why_tests_cant": "continuous domain", "anchors": ["source/math.cpp: compute_segment_plane_intersection, compute_segment_plane_intersection_type"]}
{"id": "C43", "title": "Point-in-polygon answers are consistent", "statement": "The answer does not depend on which vertex the polygon starts with or its direction, is 'v' iff the point is a vertex, and for points off the boundary agrees with the crossing parity.", "quantifier": "all polygons and points with rational coordinates", "why_tests_cant": "continuous domain", "anchors": ["source/math.cpp: compute_point_in_polygon_test"]}
{"id": "C44", "title": "API calls with invalid parameters are rejected without side effects", "statement": "Null handles, null required pointers, out-of-range counts or contradictory parameters yield MC_INVALID_VALUE and leave all library state unchanged; every internal exception is turned into an error code, never MC_NO_ERROR.", "quantifier": "all argument combinations of all entry points", "why_tests_cant": "argument product space", "anchors": ["source/mcut.cpp: all entry points", "include/mcut/internal/frontend.h: CATCH_POSSIBLE_EXCEPTIONS"]}
{"id": "C45", "title": "Blocking calls equal enqueue-wait-release", "statement": "mcDispatch, mcGetConnectedComponents and mcGetConnectedComponentData behave as the enqueue variant followed by a wait and release: they return the command's own result, leave no event behind, and earlier commands of an in-order context have finished when they return.", "quantifier": "all histories", "why_tests_cant": "histories and schedules", "anchors": ["source/mcut.cpp: mcDispatch, mcGetConnectedComponents, mcGetConnectedComponentData"]}
{"id": "C46", "title": "Seam vertex sequences partition the seam", "statement": "The seam sequence array is well-formed (count, then per sequence length, loop flag, vertices), every seam vertex occurs in exactly one sequence exactly once, and consecutive entries are adjacent vertices for path- and cycle-shaped seams.", "quantifier": "all seams (disjoint unions of paths and cycles) and all hash-map iteration orders", "why_tests_cant": "graph traversal over all seams", "anchors": ["source/frontend.cpp: get_connected_component_data_impl_detail (MC_CONNECTED_COMPONENT_DATA_SEAM_VERTEX_SEQUENCE)"]}
{"id": "C47", "title": "Morton codes interleave coordinates", "statement": "The 30-bit code interleaves the three 10-bit quantised coordinates bit by bit and is injective on them.", "quantifier": "all 2^30 coordinate triples", "why_tests_cant": "2^30 cases", "anchors": ["source/bvh.cpp: expandBits, morton3D"]}
{"id": "C48", "title": "Thread barrier releases nobody early and everybody eventually", "statement": "With n participants, no participant leaves its k-th wait before all n have entered their k-th wait, and when all have entered, all can leave.", "quantifier": "all n and all interleavings over any number of rounds", "why_tests_cant": "interleavings", "anchors": ["include/mcut/internal/tpool.h: barrier_t"]}
{"id": "C49", "title": "Watertightness check is exact", "statement": "An input mesh is considered closed iff every edge is used by two faces.", "quantifier": "all meshes", "why_tests_cant": "unbounded", "anchors": ["source/preproc.cpp: mesh_is_closed", "source/hmesh.cpp"]}
{"id": "C50", "title": "Face adjacency data is symmetric", "statement": "Face g is listed as adjacent to face f as often as f is listed as adjacent to g, adjacency lists contain exactly the faces across f's edges, and the adjacency-size array equals the list lengths.", "quantifier": "all meshes", "why_tests_cant": "unbounded", "anchors": ["source/hmesh.cpp: get_faces_around_face, get_num_faces_around_face", "source/frontend.cpp: MC_CONNECTED_COMPONENT_DATA_FACE_ADJACENT_FACE"]}
{"id": "C51", "title": "Enqueued work wakes the sleeping worker", "statement": "Whenever a task is put into a worker's queue, a worker thread that is waiting for work (or is about to wait) on that queue eventually gets it: it never sleeps forever while the queue is non-empty and the pool is alive.", "quantifier": "all interleavings of producers and the consumer at the granularity of mutex and condition-variable operations", "why_tests_cant": "lost wake-ups need one particular interleaving", "anchors": ["include/mcut/internal/tpool.h: thread_safe_queue::push, wait_for_data, wait_and_pop"]}
{"id": "C52", "title": "Shutdown always wakes the worker", "statement": "When a context or thread pool is destroyed every worker blocked on its queue wakes up and terminates, in every interleaving.", "quantifier": "all interleavings of shutdown with waiting workers", "why_tests_cant": "interleavings", "anchors": ["include/mcut/internal/tpool.h: thread_safe_queue::disrupt_wait_for_data, thread_pool", "include/mcut/internal/frontend.h: context_t::shutdown"]}
{"id": "C53", "title": "Parallel search leaves no thread touching dead objects", "statement": "When a parallel search returns, no worker thread can still access the objects that lived in the searching thread's stack frame (barrier, promise, done flag).", "quantifier": "all interleavings of the master's return with the workers' last steps", "why_tests_cant": "a use-after-return needs one particular interleaving", "anchors": ["include/mcut/internal/tpool.h: parallel_find_if, barrier_t::wait"]}
{"id": "C54", "title": "Clients that follow four rules never cause undefined behaviour", "statement": "If no call names, in a wait list, a command of another context, mcSetUserEventStatus is only given handles from mcCreateUserEvent, mcReleaseEvents is only given events of finished commands and mcReleaseContext is only called when all commands of that context are finished and none is being enqueued, then no interleaving leads to undefined behaviour or abnormal termination in the asynchronous machinery; and every way it can go wrong breaks one of these rules.", "quantifier": "all numbers of client threads, contexts, commands and all interleavings", "why_tests_cant": "a use-after-free needs one particular interleaving of one particular history", "anchors": ["include/mcut/internal/frontend.h: context_t::prepare_and_submit_API_task, context_t::api_thread_main, event_t", "source/frontend.cpp: wait_for_events_impl, release_events_impl, release_context_impl, set_user_event_status_impl"]}
{"id": "C55", "title": "Commands whose awaited events are set complete (no deadlock)", "statement": "If the client follows the rules of C54 and every user event that pending commands wait for has been set, then there is always a next step of the library's own threads until every submitted command is finished, and any fair execution of the library's threads finishes all of them; dependencies between commands cannot deadlock, in in-order and out-of-order contexts.", "quantifier": "all histories, wait lists, contexts and schedules", "why_tests_cant": "deadlock freedom ranges over all dependency graphs and schedules", "anchors": ["include/mcut/internal/frontend.h: context_t::prepare_and_submit_API_task, api_thread_main", "source/frontend.cpp: wait_for_events_impl"]}
{"id": "C56", "title": "Commands sharing the compute pool never block each other", "statement": "Whatever commands the manager threads of a context execute at the same time, the parallel sections that they run on the shared compute pool all finish: no combination of block submissions, barrier waits and prefix-sum dependencies leaves every thread waiting.", "quantifier": "all numbers of helper threads, all combinations of parallel sections, all interleavings of submissions and executions", "why_tests_cant": "a deadlock needs one particular interleaving of two managers' submissions", "anchors": ["include/mcut/internal/tpool.h: thread_pool::submit, worker_thread, parallel_for, parallel_partial_sum, parallel_find_in_map_by_key", "include/mcut/internal/frontend.h: context_t", "source/frontend.cpp: get_connected_component_data_impl_detail (MC_CONNECTED_COMPONENT_DATA_FACE_TRIANGULATION)"]}
{"id": "C57", "title": "Event queries return exactly the stored value", "statement": "mcGetEventInfo on an existing event and a known kind of information stores the size of the value (size query) or fills the buffer with exactly the value when the buffer has that size; it writes nothing and reports MC_INVALID_VALUE for unknown events or kinds and for buffers that are too small; it never reads or writes memory outside the value and the buffer.", "quantifier": "all events, kinds of information, buffer sizes and null pointers", "why_tests_cant": "the argument product space is unbounded; an over-read of a local variable is invisible to a test", "anchors": ["source/mcut.cpp: mcGetEventInfo", "source/frontend.cpp: get_event_info_impl"]}
{"id": "C58", "title": "Projecting a planar face to 2D keeps its shape", "statement": "For every planar polygon with non-zero area, the projection to two dimensions used for point-in-polygon tests, triangulation and floating-polygon handling maps different points of the plane to different points, lines to lines (with the same parameters) and is never degenerate.", "quantifier": "all normals and all points of the plane, exact arithmetic", "why_tests_cant": "continuous domain; the bad normals form a curve that random tests never hit", "anchors": ["source/math.cpp: calculate_projection_matrix, project_to_2d"]}
{"id": "C59", "title": "Output meshes partition the traced polygons", "statement": "Every output of the kernel's component extraction is a consistent mesh that is an exact copy of one connected set of the polygons that the cut produced: every polygon belongs to exactly one set, polygons whose corners are connected by edges belong to the same set, a set is output exactly when its side of the cut is wanted by the flags, the reported fragment location and seam vertices are those of its polygons, and the data maps of the output name, vertex by vertex and face by face, the origin of the copied vertex and polygon; this does not depend on the number of threads.", "quantifier": "all meshes, all lists of traced polygons, all flags and thread counts", "why_tests_cant": "unbounded meshes and thread counts", "anchors": ["source/kernel.cpp: extract_connected_components, mark_seam_vertices", "source/preproc.cpp: find_connected_components"]}
{"id": "C60", "title": "Every output vertex names its true origin in the inputs", "statement": "The kernel merges source mesh and cut mesh into one mesh that is an exact copy of both, whatever the number of threads; in the vertex map of every mesh it extracts from the cut arrangement, an entry names a vertex of the source mesh or (with the offset) of the cut mesh that has exactly the coordinates of the output vertex, and exactly the vertices that are not vertices of an input mesh have no entry; the face map names the face of the merged mesh in which the polygon was traced.", "quantifier": "all source meshes, all valid cut meshes, all thread counts, all traced polygons", "why_tests_cant": "unbounded meshes; an offset error only shows on particular index combinations", "anchors": ["source/kernel.cpp: dispatch (create polygon soup, create m0, create m1), extract_connected_components"]}
{"id": "C61", "title": "Every edge is tested against every face of the other mesh whose box it meets", "statement": "Before intersection points are computed, the kernel turns the face pairs reported by the broad phase into a list of candidate faces for each edge of the two meshes. For valid meshes, and for any boxes that contain the faces, the list of an edge contains exactly the faces of the other mesh whose bounding box meets the bounding box of the edge: each once, none missing, none extra. The result is the same with and without the thread pool and for every number of threads, and the search over neighbouring faces terminates without reading past the end of its containers. (With no reported pair at all the stage has undefined behaviour; the caller returns before it.)", "quantifier": "all pairs of valid meshes, all face boxes containing the faces, all orders of the faces in the hierarchies, all thread counts and schedules", "why_tests_cant": "A lost candidate is a silently missing intersection point in some mesh; tests only see a few meshes, one thread count and few neighbourhoods of faces, while the two implementations traverse the faces in entirely different orders.", "anchors": "source/kernel.cpp:1778-2161 (dispatch: edge-to-face pairs, edge boxes, culling); source/bvh.cpp:578-680 (intersectOIBVHs)"}
{"id": "C62", "title": "The edge/face test finds every crossing and nothing else", "statement": "For a proper triangle and any segment that does not lie in its plane (exact arithmetic, projection not singular): a point is registered exactly if the segment, with both ends off the plane, passes through the open triangle, and the registered point is that crossing; nothing happens exactly if segment and closed triangle are disjoint; in all other cases a violation of general position is reported. Consequently two triangles that do not lie in one plane are disjoint exactly if none of the six tests of a side of one against the other does anything: no intersection between triangles is overlooked and none is invented. (Triangles in one plane are only tested through their corners: overlapping coplanar triangles in hexagram position pass unnoticed.)", "quantifier": "all triangles, all segments, all ordered fields of coordinates", "why_tests_cant": "The claim is about all positions of a segment relative to a triangle, including all the touching positions; tests sample a few of them, and the positions that matter have measure zero.", "anchors": "source/kernel.cpp:2481-2564, 2892-3012 (dispatch: edge/face tests); source/math.cpp:120-196, 253-287, 411-562, 707-755"}
{"id": "C63", "title": "Every intersection point is recorded once, in tables that agree with each other", "statement": "When a dispatch computes the intersection points of the edges of one mesh with the faces of the other: if some candidate pair violates general position, the dispatch reports it; otherwise every pair of an edge and a face with an intersection gives exactly one new vertex, and the tables built from them (the edge and face of each point, the points on each edge, on each face, for each pair of a source mesh face and a cut mesh face, on the border of the cut mesh, the partial-cut flag) all describe the same set of points with the same vertex numbers. This holds without the thread pool and, with it, for every number of threads, every order in which the jobs start, end, see the failure flag of others and are merged; the set of points found is the same in all cases, and the calling thread always gets through the stage.", "quantifier": "all meshes, all candidate maps in any order, all outcomes of the edge/face tests, all numbers of threads, all schedules", "why_tests_cant": "The merge of the per-thread tables renumbers vertices and depends on which thread found what first and on when a thread sees another one's failure; tests see only a few schedules, and mostly meshes too small to be divided among threads.", "anchors": "source/kernel.cpp:2340-3160 (dispatch: fn_compute_intersection_points, merging of futures, sequential variant), include/mcut/internal/tpool.h:422-527 (parallel_for)"}
{"id": "C64", "title": "Degenerate faces are reported before any cutting, and blamed on the right mesh", "statement": "A dispatch tests every face that may meet the other mesh for zero area before it computes intersections: it goes on exactly if none of these faces has zero area, and then knows the plane of exactly these faces, with or without the thread pool and in every schedule; otherwise it stops with an invalid-mesh error that names a face without area, the mesh it belongs to and its number there, after all jobs it started have ended. A triangle counts as degenerate exactly if its corners lie on a line (exact arithmetic). The code violates two parts: the first face of the cut mesh is blamed on the source mesh (under a number that mesh does not have), and with the thread pool the dispatch can return while jobs that read its meshes are still running.", "quantifier": "all meshes, all sets of tested faces, all numbers of threads, all schedules", "why_tests_cant": "Whether the calling thread leaves early depends on the schedule, and a job that outlives the dispatch shows only as rare memory corruption; the wrong blame shows only for one particular face number.", "anchors": "source/kernel.cpp:2165-2333 (dispatch: fn_compute_intersecting_face_properties), source/math.cpp:120-148 (compute_polygon_plane_coefficients), source/preproc.cpp:2213-2223"}
{"id": "C65", "title": "The cut edge of two triangles is their intersection", "statement": "When the narrow phase of a dispatch tests the three edges of a triangle of one mesh against a triangle of the other mesh and the other way round, and none of the six tests reports a violation of general position, then (for triangles that do not lie in one plane) either no intersection point is registered and the two triangles have no common point, or exactly two points are registered, they are different, and the straight segment between them - the new edge along which both triangles are later cut - consists of exactly the common points of the two triangles: nothing of the intersection is lost and nothing is cut that does not intersect.", "quantifier": "all pairs of proper triangles, in any position not in one plane, with coordinates in any ordered field", "why_tests_cant": "the pairs of triangles form a twelve-dimensional continuum; the claim that the number of registered points is never 1, 3, 4, 5 or 6 needs an argument about all positions", "anchors": ["source/kernel.cpp: dispatch (lines 2481-3012, 3284-3540)", "source/math.cpp: compute_segment_plane_intersection, compute_segment_plane_intersection_type, compute_point_in_polygon_test"]}
{"id": "C66", "title": "The cut graph joins the intersection points face pair by face pair", "statement": "From the intersection points a dispatch builds the cut edges. When every pair of a source mesh face and a cut mesh face that has common intersection points has exactly two of them (triangles in general position, C65), then in whatever order the pairs are processed: there is exactly one edge between the two points of each pair and no other edge; each face is told exactly the cut edges that lie on it; each point is told exactly the halfedges that end in it. If no two faces share more than one edge, a point on a border edge of its mesh is the end of exactly one cut edge and every other point the end of exactly two, so for closed meshes all cut paths are closed loops.", "quantifier": "all valid pairs of meshes, all sets of intersection points and registry tables, all processing orders", "why_tests_cant": "the number and interplay of intersecting face pairs is unbounded; that the neighbour bookkeeping neither misses nor doubles an edge of a face needs an invariant over the whole loop", "anchors": "source/kernel.cpp:1409-1492 (update_neighouring_ps_iface_m0_edge_list), source/kernel.cpp:3284-3557 (dispatch: create edges)"}
{"id": "C67", "title": "The cut paths are exactly the paths and loops of the cut", "statement": "For triangle-like cuts (every pair of intersecting faces has two common points) of valid meshes, whatever the iteration order of the hash maps: the kernel orders the cut edges into sequences such that every edge is in exactly one sequence, edges that meet are in the same one, and each sequence is a simple path between two points or a closed loop. A sequence is classified as linear exactly if it is a path; its end points then lie on border edges of the input meshes, it makes a hole exactly if both of these belong to the cut mesh, and it severs the source mesh exactly if both belong to the source mesh. A loop passes through no border edge, makes a hole and severs.", "quantifier": "all pairs of valid meshes, all tables of intersection points that C63 can leave, all iteration orders", "why_tests_cant": "the search depends on the iteration order of unordered containers and on the whole graph of cut edges; a test sees one order and one graph", "anchors": "source/kernel.cpp:3565-3995 (m0_ivtx_to_cutpath_edges, m0_cutpath_sequences, m0_cutpath_sequence_to_properties)"}
{"id": "C68", "title": "Floating polygons are exactly the closed cut paths through one face", "statement": "For cuts of valid meshes in which every pair of intersecting faces has two common points, whatever the iteration order of the hash maps: the floating-polygon check never fails; a polygon is reported exactly for each closed cut path all of whose points pierce one and the same face; it is reported with that face and with all points of the loop, each once, in order around it; so the kernel asks the front end to partition faces exactly if there is such a loop.", "quantifier": "all pairs of valid meshes, all tables of intersection points that C63 can leave, all iteration orders", "why_tests_cant": "the check looks at some of the points only and starts at whatever point the hash map begins with; a test sees one loop and one order", "anchors": "source/kernel.cpp:4017-4137 (dispatch: floating polygons)"}
{"id": "C69", "title": "The cut curve is exactly the intersection of the two surfaces", "statement": "For any two valid meshes in which no face of one lies in the plane of a face of the other, for every number of threads, every schedule and every iteration order of the hash maps: from the broad phase to the cut edges, either the kernel reports a violation of general position, and this happens exactly if some edge of one mesh touches a face of the other in a point that is an end of the edge or lies on the boundary of the face, or it computes cut edges whose union is exactly the set of points common to both surfaces; nothing is overlooked and nothing is invented. If no boxes of faces meet, the surfaces are disjoint.", "quantifier": "all pairs of valid meshes without coplanar pairs of faces, all thread counts, schedules and iteration orders", "why_tests_cant": "a statement about all points of two surfaces and about the interplay of six stages; a test can only sample meshes", "anchors": "source/kernel.cpp:1778-3563 (dispatch: pairs, narrow phase, registry, cut edges); source/bvh.cpp (intersectOIBVHs); source/math.cpp:253-567"}
{"id": "C70", "title": "Every edge is divided exactly at its intersection points", "statement": "After the cut edges have been made, every edge of the two input meshes reappears in the working mesh as a chain of pieces that leads from one end of the edge to the other through all its intersection points, in the order of their distance from the first end, and through no other vertex; every new edge is a piece of exactly one input edge; the pieces of the edges of a face that is cut, together with its cut edges, are exactly the edges listed for that face; all halfedges that end in an intersection point are listed for it. This holds for every iteration order of the hash maps, for every way std::sort may treat equal elements, and with the thread pool for every division into blocks and every progress of the other threads while results are merged.", "quantifier": "all pairs of valid meshes, all sets of intersection points such that faces with common points have exactly two of them, all iteration orders, block divisions and thread progress", "why_tests_cant": "ranges over all meshes, numbers of points per edge, hash orders and schedules", "anchors": "source/kernel.cpp:4224-4848 (dispatch: polygon boundary edges, merge_local_m0_edges); source/kernel.cpp:1498-1534 (linear_projection_sort)"}
{"id": "C71", "title": "The faces are divided into polygons along the cut edges", "statement": "After the edges have been divided, the polygons traced in each face are made of the halfedges of the working mesh in such a way that: a face without cut edges gives exactly one polygon, its boundary with the intersection points inserted in order; in a face with cut edges every polygon is a closed walk without repeated halfedge whose successive halfedges share a vertex and turn along the listed edges of the face, every piece of the boundary of the face is in exactly one polygon, in the direction of the face, every halfedge is in at most one polygon of the face, and every cut edge connected with the boundary is used in both directions, once each. Every polygon is listed for the face it is part of and for the mesh it comes from. This holds for every permitted result of std::partition and, with the thread pool, for every division into blocks: the pool produces exactly the polygons and tables of the sequential run over the blocks in order.", "quantifier": "all pairs of valid meshes, all cut edges and points as produced by C66/C70 with at most one point per edge of a cut face, all results of std::partition, all orders and block divisions", "why_tests_cant": "ranges over all meshes, all arrangements of cut edges in a face, unspecified library orders and all block divisions", "anchors": "source/kernel.cpp:4853-6190 (dispatch: trace polygons, merge_local_m0_polygons)"}
{"id": "C72", "title": "Two vertices are joined by at most one edge", "statement": "In every mesh that the library makes with add_vertex/add_face (in particular from the client's arrays, and when source mesh and cut mesh are merged), and in every mesh edited with add_edge where halfedge(v0, v1, true) reported no halfedge, two vertices are joined by at most one edge; looking up a halfedge by its two ends returns the only halfedge that leads from one to the other, or null if there is none.", "quantifier": "all histories of legal mesh operations, all client arrays, all thread counts", "why_tests_cant": "must hold for every history of insertions and removals", "anchors": "source/hmesh.cpp:302-353 (hmesh_t::halfedge), 403-518 (add_edge), 520-648 (add_face); source/kernel.cpp:1590-1728"}
{"id": "C73", "title": "Which polygons use a halfedge", "statement": "After tracing, no polygon uses a halfedge twice. A halfedge on an edge of an input mesh is used by exactly one polygon, which comes from the face on that side, and by none if there is no face on that side. A halfedge of the cut is used only by polygons from the two faces that it lies in (one of the source mesh, one of the cut mesh), by at most one polygon of each, and by exactly one if the cut connects it with the boundary of the face. The kernel's table lists exactly these polygons for every halfedge in ascending order (so at most two) and no access to it is out of range.", "quantifier": "all merged meshes, registries, partitions chosen by std::partition and orders of edges, with at most one intersection point per edge of an intersecting face", "why_tests_cant": "must hold for every pair of meshes and every order left open by the library functions", "anchors": "source/kernel.cpp:6369-6416 (m0_h_to_ply), 4853-6190 (tracing)"}
{"id": "C74", "title": "Seamed source mesh and seamed cut mesh", "statement": "When seams are requested, the seamed source mesh consists of exactly the polygons into which the faces of the source mesh were divided: its vertices are the corners of these polygons, its seam vertices are exactly the intersection points, its vertex map names the input vertex of each vertex (and none for an intersection point), its face map names the input face of each polygon. The same holds for the seamed cut mesh, whose origins are numbered after those of the source mesh. The source one is built exactly if it is wanted and the cut mesh is watertight, or all cut paths are circular, or all are linear and sever the source mesh; the cut one exactly if it is wanted and the source mesh is watertight or all cut paths are circular. No polygon passes through a vertex twice, the polygons of a connected mesh are connected, so building them cannot fail.", "quantifier": "all pairs of meshes, registries, options, cut paths, thread counts and orders left open by the library", "why_tests_cant": "must hold for every pair of meshes and every set of options; a polygon that passes through a vertex twice would make the construction of the mesh fail", "anchors": "source/kernel.cpp:6226-6353 (SEAMED MESHES), 3966-3993, extract_connected_components, include/mcut/mcut.h MC_DISPATCH_FILTER_SEAM_SRCMESH/CUTMESH"}
{"id": "C75", "title": "Enclosure: inside the source mesh, inside the cut mesh, or neither", "statement": "When the surfaces do not meet, MC_DISPATCH_INTERSECTION_TYPE_INSIDE_CUTMESH is reported exactly if every point of the source mesh is enclosed by the watertight cut mesh, and MC_DISPATCH_INTERSECTION_TYPE_INSIDE_SOURCEMESH exactly if every point of the cut mesh is enclosed by the watertight source mesh. Enclosed means: every ray from the point that meets no side of a triangle leaves through the surface once more than it enters. Testing one vertex is enough for a connected mesh, the tolerance 1e-7 is harmless because the winding number of a watertight mesh is an integer, and helper threads do not change the result.", "quantifier": "all pairs of connected polygon meshes without a common point, all query points off the surface, all rays, all divisions of faces into triangles, all thread counts and interleavings of the additions", "why_tests_cant": "the winding number is a sum of arctangents over all faces; that it is an integer, constant along paths and equal to ray counting is a topological fact about all closed meshes", "anchors": "source/preproc.cpp:1325-1727 (calculate_signed_solid_angle, computeWindingNumberOnFace, getWindingNumber, check_and_store_input_mesh_intersection_type), 1994-2006, include/mcut/internal/tpool.h mc_atomic_fetch_add, include/mcut/mcut.h McDispatchIntersectionType"}
{"id": "C76", "title": "Source mesh polygons along the cut are above or below the cut mesh", "statement": "When the dispatch divides the faces of the source mesh along the cut, a polygon is classified as above the cut mesh exactly if an edge on its boundary passes there from the front of a face of the cut mesh to its back; each such polygon has a neighbour across the cut that lies below. Only polygons that do lie below are recorded as below; when no polygon lies on both sides, exactly the ones below are. (MC_FRAGMENT_LOCATION_ABOVE and MC_FRAGMENT_LOCATION_BELOW rest on these two lists.)", "quantifier": "all pairs of valid meshes whose intersecting faces have at most one intersection point on each edge, all orders of std::partition, all registries and cut edges the earlier stages can produce", "why_tests_cant": "the classification depends on the traced polygons, the halfedge tables and the sign of a scalar product at every intersection point, for all meshes in general position", "anchors": "source/kernel.cpp:6641-6821, 1409-1417 (ps_get_ivtx_registry_entry_faces), include/mcut/internal/utils.h wrap_integer, include/mcut/mcut.h McFragmentLocation"}
{"id": "C77", "title": "The source mesh comes apart along the cut and nowhere else", "statement": "When the dispatch partitions the source mesh, no exception occurs and every polygon of the source mesh is kept with its corners, in order. Two polygons on different sides of the cut no longer share an edge or an intersection point; polygons that shared an edge apart from the cut still share it; corners share their copy of an intersection point exactly if they are on the same side of the cut; every new vertex has the position of the intersection point it is a copy of, and original vertices are not duplicated. This does not depend on the order in which the hash tables are enumerated.", "quantifier": "all pairs of valid meshes whose intersecting faces have at most one intersection point on each edge and whose intersecting source faces have an edge without one, all orders of std::partition, all enumeration orders of the unordered maps, all registries and cut edges the earlier stages can produce", "why_tests_cant": "the walks visit the intersection halfedges in an order that depends on hash tables, and each step relies on what the earlier walks have left behind; every order and every mesh must give the same partition", "anchors": "source/kernel.cpp:6839-7657, 1183-1407 (resolve_intersection_point_descriptor), include/mcut/internal/utils.h SAFE_ACCESS"}
{"id": "C78", "title": "The unsealed fragments are the parts of the source mesh that hang together without crossing the cut", "statement": "When unsealed fragments are wanted, they are made without exception: for each group of source mesh polygons that hang together (by an original vertex, or by an edge other than a cut edge) there is exactly one fragment, if fragments at its location are wanted, and there is no other fragment. A fragment is a copy of its polygons at their places; its location is that of its recorded polygons; its seam vertices are exactly its copies of intersection points; its vertex map names the original vertex or says that there is none; its face map names the input face that the polygon is a part of. If neither unsealed nor partially sealed fragments are wanted, none are made. The result does not depend on the number of threads.", "quantifier": "all pairs of valid meshes whose intersecting faces have at most one intersection point on each edge, all orders of std::partition, all enumeration orders of the unordered maps, all thread counts, all keep options, all registries and cut edges the earlier stages can produce", "why_tests_cant": "the groups come from a union-find run over what the walks of the partitioning have made, the maps pass through four tables of indices, and the number of threads decides about the order; all inputs must give the right groups and origins", "anchors": "source/kernel.cpp:7658-7735, 7651-7652, 541-900 (extract_connected_components), include/mcut/internal/kernel.h:144-171"}
{"id": "C79", "title": "The patches of the cut mesh are its parts that are bounded by the cut", "statement": "If every cut path makes a hole and some fragment, sealed fragment or patch is wanted, the patches of the cut mesh are found without exception: every patch is a maximal set of cut mesh polygons that hang together through edges without crossing the cut, each polygon listed once; every patch has a polygon at the cut; no polygon is in two patches; every cut mesh polygon that has a cut edge is in one. If some cut path ends at a border of the source mesh or none of these results is wanted, no patches are made.", "quantifier": "all pairs of valid meshes whose intersecting faces are cut cleanly, all orders of the cut edges and paths, all orders of std::partition, all registries and cut edges the earlier stages can produce, all option combinations", "why_tests_cant": "the flood fill is started only at the first edge of each path, so that all polygons along a path are reached depends on the shape of the cut mesh along the whole path, of any length; tests only see particular meshes", "anchors": "source/kernel.cpp:7736-8110, 3968-3988, include/mcut/internal/kernel.h:144-171"}
{"id": "C80", "title": "Every patch is placed on its right side: inside or outside of the source mesh", "statement": "If every cut path makes a hole: the table of neighbours of the patches, their two colours and the meaning of the colours (inside / outside) are found without exception. Two patches are neighbours exactly if polygons of theirs meet in a cut edge. Whenever the cut mesh polygons have two sides with respect to the source mesh that change exactly at the cut, two patches get the same colour exactly if they are on the same side, every patch has exactly one colour; and if the polygons whose boundary passes into the source mesh from the front are outside, a patch is placed \"outside\" exactly if its polygons are outside. The outcome does not depend on the order in which the hash maps are passed through. If the polygons at the cut did not hang together, neighbours could get the same colour.", "quantifier": "all pairs of valid meshes whose intersecting faces are cut cleanly, all numbers of cut paths and patches, all iteration orders of the hash maps, all ways to tell the two sides", "why_tests_cant": "the colouring is a breadth-first search with the square of an adjacency matrix; correctness for any number of patches in any arrangement needs an induction; an iteration order seen in a test proves nothing about the others", "anchors": "source/kernel.cpp:6443-6623, 8112-8242, 8518-8660, include/mcut/internal/math.h:280-293"}
{"id": "C81", "title": "The patches are delivered twice: as they are and reversed, with correct seams and maps", "statement": "If every cut path makes a hole and the patches have been placed, then for each of the two places (inside, outside) the output has, if the caller asked for patches there, exactly the patches with that place, each once in the winding order of the cut mesh and once in the reverse order, and no others. Each patch mesh is a copy of the polygons of the patch: the same vertex positions, every vertex used, one face per polygon with its corners in the same order (or in the reverse order); its seam vertices are exactly the copies of the intersection points; the vertex map names, for every other vertex, the vertex of the cut mesh, offset by the number of vertices of the source mesh; the face map names the face of the cut mesh in which the polygon was traced, with the offset of the source mesh's faces. No insertion of a face is refused and no table look-up fails, for every number of threads. The reversed patches are paired with their originals.", "quantifier": "all pairs of valid meshes whose intersecting faces are cut cleanly, all numbers of patches, all colourings, all thread counts, all combinations of options", "why_tests_cant": "that no face insertion is refused for the reversed polygons needs that no directed side occurs twice in any patch of any input; the offsets in the maps must be right for every vertex and face", "anchors": "source/kernel.cpp:8661-9267 (reversed patches, color_to_patch, patch_mesh, vertex_map, face_map), source/kernel.cpp:1608-1776 (ps_to_cm_vtx, ps_to_cm_face)"}
{"id": "C82", "title": "The maps of the output meshes are true: same place, right face", "statement": "For the seamed source and cut meshes, every unsealed fragment and every patch: the vertex map has one entry per vertex; following it leads to a vertex of the input meshes in exactly the same place, different ones for different vertices, and it is undefined exactly for the seam vertices. The face map has one entry per face and names an input face of which the face is a part: all its corners lie on that face, and its corners that are not seam vertices are corners of that face. For triangle meshes in exact arithmetic 'lie on' is literal: the corner is a point of the triangle. What the client reads after the renumbering of the dispatch names the client's own vertices and faces, whatever was partitioned.", "quantifier": "all pairs of valid meshes whose intersecting faces are cut cleanly, all orders of edges, faces and splits, all thread counts, all options, all partitioning histories", "why_tests_cant": "the entries go through five renumberings (merge, tracing, duplication at the cut, extraction, partitioning); an offset that is wrong for one class of vertices shows only for inputs that have them", "anchors": "source/kernel.cpp:1608-1776 (ps_to_sm_vtx, ps_to_cm_vtx, ps_to_sm_face, ps_to_cm_face), source/kernel.cpp:394-1135 (extract_connected_components), source/kernel.cpp:9040-9260 (patch maps), source/frontend.cpp (McGetConnectedComponentData: MC_CONNECTED_COMPONENT_DATA_VERTEX_MAP, MC_CONNECTED_COMPONENT_DATA_FACE_MAP)"}
{"id": "C83", "title": "The patches are stitched to the fragments: sealed fragments", "statement": "When sealed fragments are produced, the patches of the cut mesh that are inside (or outside) the source mesh, as they are and with reversed orientation, are joined to the fragments of the source mesh: every polygon of these patches is added exactly once, with its corners in the same places and in the same order; along the cut it uses the very edge of the polygon of the source mesh on the other side, so no gap remains there and no edge gets more than two polygons; polygons of one patch that were neighbours still are; nothing else is joined. The fragments themselves are unchanged. A reversed patch has copies of the vertices of the cut mesh, which are its own.", "quantifier": "all pairs of valid meshes cut cleanly by a cut that makes holes, with a cut mesh on two sides of the source mesh, all orders in which the polygons are visited, both colours", "why_tests_cant": "the stitching is a walk over the patch that looks up, halfedge by halfedge, which versions already exist; a wrong one is joined only for meshes where two patches, or a patch and its reversed copy, share a vertex in a certain way", "anchors": "source/kernel.cpp:9253-10735 (m1_colored, patch_poly_stitching_queue, color_to_m0_to_m1_he_instances, m1_to_m0_cm_ovtx_colored), include/mcut/mcut.h (MC_DISPATCH_FILTER_FRAGMENT_SEALING_INSIDE, MC_DISPATCH_FILTER_FRAGMENT_SEALING_OUTSIDE)"}
{"id": "C84", "title": "Sealed fragments: valid, watertight, complete, and correctly mapped", "statement": "When both input meshes are watertight, every sealed fragment that a cut produces is watertight. For each placement (inside, outside) the sealed fragments are made without exception, and they are exactly the groups of connected polygons after the patches have been stitched on: each consists of whole fragments of the source mesh, at least one, and of whole patches, and where a fragment has been cut the patch that closes it is part of the group; no fragment is left out, if its location (above, below) is wanted, and none is produced twice. Each is a valid mesh whose faces are polygons of the source mesh, or of the cut mesh (turned round, when the patch is reversed), with their corners in the same places. Its seam vertices are the points of intersection; its face map names the face of the input mesh each face came from, and every vertex named by its vertex map is the input vertex in the same place.", "quantifier": "all pairs of valid meshes in general position cut cleanly by a cut that makes holes, with a cut mesh on two sides of the source mesh; all dispatch flags for placement and location, any number of threads, all orders in which the polygons are visited", "why_tests_cant": "watertightness of the result depends on the stitching having found the other side of every edge of the cut, in every patch and in both orientations, and on the extraction keeping all polygons of a group and no other; a test sees only the meshes it was given", "anchors": "source/kernel.cpp:10571-10680 (color_to_separated_connected_ccsponents, output.connected_components), 394-1060 (extract_connected_components), 9253-10560 (stitching), include/mcut/mcut.h (MC_DISPATCH_FILTER_FRAGMENT_SEALING_INSIDE, MC_DISPATCH_FILTER_FRAGMENT_SEALING_OUTSIDE, MC_CONNECTED_COMPONENT_DATA_VERTEX_MAP, MC_CONNECTED_COMPONENT_DATA_FACE_MAP)"}
{"id": "C85", "title": "Triangulating a face: inserting the corners never corrupts the triangulation", "statement": "When the triangulation of a face is requested, its corners (all different, at least two) are inserted one by one into a triangle that encloses them strictly. After each corner the result is a proper triangulation: the triangles are not degenerate and are counter-clockwise, no two of them overlap, together they fill the enclosing triangle and nothing else, their corners are exactly the vertices inserted so far, there are two more triangles per vertex, each triangle and the one across an edge name each other as neighbours and agree on the edge, only the three outer edges have no neighbour, and each vertex lists exactly the triangles around it. The edge flips terminate for each vertex. The only way to fail is the documented exception, when the search for the triangle that contains the next corner ends in a triangle that does not contain it.", "quantifier": "all lists of different points, any order, any choice of triangle by the (random) search, also points on existing edges; all steps", "why_tests_cant": "flips are decided by circle tests and by special rules for the corners of the enclosing triangle; that each flip is possible (the four points are convex), that no neighbour entry is changed twice by mistake and that flipping ends are facts about all configurations", "anchors": "include/mcut/internal/cdt/triangulate.h (insert_vertices, insert_vertex, insert_point_in_triangle, insert_point_on_edge, enforce_delaunay_property_using_edge_flips, check_is_edgeflip_needed, do_edgeflip, change_neighbour, add_super_triangle), include/mcut/internal/cdt/utils.h (locate_point_wrt_triangle, get_neighbour_index), source/frontend.cpp:1548-1549"}
{"id": "C86", "title": "Triangulating a face: exactly what is outside of the outline is erased", "statement": "After the outline of a face has been fixed in the triangulation, erasing the outside terminates, and it removes exactly the triangles that can be reached from the enclosing triangle without crossing a fixed edge: at least all triangles with an artificial corner, so no artificial corner is left in the output. The other triangles keep their order and their corners, the numbers of their corners become those of the face's corners, the fixed edges are renumbered in the same way, a neighbour is forgotten exactly if it was removed, the neighbours stay mutual, and what is left has only fixed edges on its boundary. The check of the topology that follows then succeeds, so the face is not skipped because of it.", "quantifier": "all triangulations of the enclosing triangle, all sets of fixed edges between the face's corners (closed or not), all sizes", "why_tests_cant": "the flood fill pushes triangles more than once and compacts arrays in place; that it stops, that all triangles around the three artificial corners are connected without crossing fixed edges (otherwise indices would wrap around), and that renumbering is consistent must hold for every triangulation", "anchors": "include/mcut/internal/cdt/triangulate.h (erase_outer_triangles, grow_to_boundary, finalise_triangulation, remove_triangles), include/mcut/internal/cdt/cdt.h (check_topology, get_vertex_to_triangles_map), source/frontend.cpp:1551-1564"}
{"id": "C87", "title": "Triangulating a face: the triangles are the face", "statement": "If the edges of a face's outline are in the triangulation, the triangles that are left after the outside is erased are the face: a face with n corners has exactly n - 2 triangles, all with the face's corners and counter-clockwise; no point is strictly inside two of them; every point around which the outline goes is in a triangle, and a point strictly inside a triangle is inside the outline; the areas of the triangles add up to the area of the face. In particular the result is never empty, whether the face's projection is clockwise or counter-clockwise.", "quantifier": "all triangulations of the enclosing triangle (so all orders and all positions of the corners of the face), all faces of which the edges are in it, convex or not, all numbers of corners", "why_tests_cant": "which side of the outline is erased is decided by a flood fill that only looks at fixed edges: that a closed outline separates (a discrete Jordan theorem), that the part inside is connected and that its number of triangles depends only on the number of corners must hold for every polygon and every triangulation", "anchors": "include/mcut/internal/cdt/triangulate.h (erase_outer_triangles, insert_edges, insert_edge), source/frontend.cpp:1526-1564"}
{"id": "C88", "title": "Triangulating a face: every triangle is output once, in the direction of the face", "statement": "The triangles that the triangulator leaves for a face of a connected component are all put into the triangulated output: each of them exactly once, and none is dropped. The output triangles of a face with n corners are n - 2 triangles over the face's corners, no directed side occurs twice, and the sides without an opposite side are exactly the edges of the face in the direction of the face; so the triangles have the orientation of the face, also when projection to 2D has reversed the corners. Only if no face is across any edge of the face can they all have the opposite orientation. The walk terminates and all assertions on the way hold.", "quantifier": "all connected components (any mesh of faces that the mesh operations give, in particular every copy of polygons that the kernel puts out), all faces in them, all triangulations of the enclosing triangle with the face's outline as fixed edges, either outcome of the projection, any order of the hash set of fixed edges; provided no face across an edge has another edge between two corners of the face", "why_tests_cant": "the walk marks triangles when they are popped, so it visits each once only because the adjacency of the triangles is a tree; orientation is decided locally, triangle by triangle, against a partial mesh, and that the local decisions never conflict is a global fact about every polygon and its neighbourhood", "anchors": "source/frontend.cpp:1098-1229 (winding order tracker), 1566-1806 (walk and insertion), source/hmesh.cpp (is_insertable, add_face)"}
{"id": "C89", "title": "Triangulating a face: either the triangles are the face, or the triangulator cannot go on", "statement": "Triangulating a face of a connected component (projecting its corners to 2D, reversing them, inserting them into an enclosing triangle, forcing the outline, erasing what is outside, putting the triangles into the output) either gives triangles over the face's corners that are the face \u2014 they fill the outline with each directed side once, each faces the same side in space as the face, no point is strictly inside two of them, and their areas add up to the area of the face \u2014 or it ends with an exception, and then because the search for a corner did not end in a triangle that contains it or because an edge of the face is not an edge of a triangle and has to be forced. In particular a face is never skipped or given wrong triangles silently. Only a face without any neighbour can be output with the opposite orientation.", "quantifier": "all connected components (any mesh of faces that the mesh operations give, in particular every copy of polygons that the kernel puts out), all faces whose corners are different points of a plane with non-zero area and not one of the normals for which the projection breaks down (C58), all walks of the search, any order of the hash set of fixed edges, all outlines (convex or not)", "why_tests_cant": "the promise joins six stages (projection, Delaunay triangulation, constrained edges, erasing, walk, insertion into the neighbourhood), each of which has its own notion of correctness; tests can only sample polygons", "anchors": "source/frontend.cpp:1002-1806 (triangulate_face), source/math.cpp (compute_polygon_plane_coefficients, project_to_2d), cdt/triangulate.h, cdt/cdt.h"}
{"id": "C90", "title": "The triangulation of a connected component is the component with its faces cut by diagonals", "statement": "The array of the data query MC_CONNECTED_COMPONENT_DATA_FACE_TRIANGULATION, read three indices at a time, is a consistently oriented mesh over the component's vertices: no directed edge occurs twice, every edge of a face is there in the same direction, the border (edges with a face on one side only) is the border of the component, and a face with n corners has become n - 2 triangles over its corners. It can be put together again by the mesh operations, as an input mesh would be. This holds for every order in which the threads write their part, and no face is missing.", "quantifier": "all connected components (any mesh of faces that the mesh operations give, in particular every copy of polygons that the kernel puts out: fragments, patches, seams) in which two faces with two common corners have the edge between them in common, whose faces that are not triangles have a neighbour and are not skipped because of corners at the same place (C91; flat faces with different corners never are), all walks of the search and orders of hash sets with which no exception is thrown, all schedules of the query's threads", "why_tests_cant": "faces are triangulated independently of each other, in parallel, and each one against its own neighbourhood only; that the results fit together into one mesh without cracks or double edges is a property of all components and schedules", "anchors": "source/frontend.cpp:3302-3609 (FACE_TRIANGULATION query), 1002-1806 (triangulate_face)"}
{"id": "C91", "title": "Corners of a face at the same place: the face is triangulated as a whole or not at all", "statement": "A face of a connected component can have several corners at the same place (a cut that ends inside of a face leaves a slit). They are found exactly: a corner counts as a duplicate if and only if an earlier corner is at the same place, and two corners get the same number if and only if they are at the same place. If there is one duplicate, its partner is identified correctly and it is moved (to the middle of its other edge, if the two are neighbours). Whatever the corners of a face are - several at one place, not in a plane, without area -, the face is either triangulated as a whole (n - 2 triangles over its corners that fill its outline with each directed side once, in the direction of the face, and that tile the polygon of the moved corners), or skipped as a whole because two corners are still at the same place, or the triangulator ends with an exception (or calculates with something that is not a number); never are only some of its triangles output. If there are two pairs, the partner of the second one can be misidentified and the corner moved to 'not a number'.", "quantifier": "all connected components (any mesh of faces), all faces in them with any places of the corners, all walks of the search, any order of the hash set of fixed edges; for the search for duplicates, all lists of points", "why_tests_cant": "the degenerate corners come from partial cuts and rounding, so tests rarely produce them, and which of them coincide, in which order, and how they are moved are unbounded combinations", "anchors": "source/frontend.cpp:1231-1545 (triangulate_face, duplicate corners), include/mcut/internal/cdt/cdt.h:120-172 (find_duplicates)"}
{"id": "C92", "title": "Partial cuts: the border of the cut mesh inside of the source mesh is found", "statement": "When a cut mesh ends inside of the source mesh, the vertices of its border there must not be doubled, else the slit would fall open at its end. To find them, the kernel walks along the border from the points where it meets the surface of the source mesh. The walk ends always, at the next intersection point, and never leaves the border: the list is made up of complete pieces of the border, each from one of these points to the next intersection point, each edge starting where the one before ends. The piece of every such point is found. (Proved: at least one is found if there is one; that of the last point in the list is; with several points the others can be lost if the polygons do not come in the order of the points, already when one corner of a triangle pierces the source mesh.)", "quantifier": "all closed polygons of the cut mesh in which a halfedge with an end that is no intersection point belongs to one polygon, any number of triangles around a border vertex, any numbers of vertices, any list of entry points", "why_tests_cant": "the walk goes through any number of polygons and around fans of any size, and a wrong turn would loop for ever or run into a point elsewhere; the order of polygons and entry points depends on the input", "anchors": "source/kernel.cpp:8246-8512, 2595-2601"}
{"id": "C93", "title": "Faces with more than two common points are joined along their line", "statement": "Two faces that are not triangles can have more than two common points (a U-shaped face cut through both arms). The kernel sorts them along their line and joins neighbours, if the middle between them is inside of both faces. The result is exact: the sorting loses no point, and two points follow each other in it exactly if no other common point is between them, whatever std::sort does and whichever two points give the direction; there is exactly one cut edge for each two neighbours whose middle is inside of both faces (always, if the faces have two common points only), no other cut edge, each is listed for exactly the two faces, and the halfedges of each point are those that end in it. If along the line of two faces the test of the middle follows the even-odd rule, each of their common points is the end of exactly one edge of theirs; so every point where an inner edge pierces a face is the end of exactly two cut edges, and in closed meshes the cut edges form closed loops, whatever the shapes of the faces are.", "quantifier": "all valid source and cut meshes with polygons of any sizes and shapes of which no two faces have more than one common edge, all tables that the intersection tests leave, any number of common points of a pair, any order of the pairs", "why_tests_cant": "the number of common points and their order in the tables are not bounded, and the direction of the sorting depends on which two points come first; an edge over a gap or a missing one shows only in the final pieces", "anchors": "source/kernel.cpp:1379-1534, 3379-3556"}
{"id": "C94", "title": "A planar section cuts at the plane that was asked for", "statement": "mcEnqueueDispatchPlanarSection cuts the mesh with the plane that is orthogonal to the given normal and lies at the given fraction of the extent of the mesh along the normal. This is false of the code in four ways: the section offset has no effect on the triangle that is used as the cut mesh; the triangle always lies in the plane through the origin of the coordinates, so a mesh on one side of that plane is never cut; for a normal along a negative axis the code divides by zero; and the triangle need not contain the whole section of the mesh. No offset is refused. What holds: the triangle is orthogonal to the normal, and it is computed without a division by zero for every other normal, and contains all points of its plane within three quarters of the diagonal of the box of the mesh from the projected mean of its vertices.", "quantifier": "all meshes, all normals that are not zero, all section offsets, all values of the general position constant", "why_tests_cant": "no test uses planar sections, and the tutorial calls the function with one mesh and one offset; that the offset has no effect can only be seen by comparing all offsets", "anchors": "source/frontend.cpp:697-941, source/mcut.cpp:590-670, include/mcut/mcut.h:1012-1034"}
