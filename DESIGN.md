# Formal model of cutdigital/mcut in Lean 4 — design

## 1. Trusted base

* Lean 4.33.0's kernel (and the correctness of Lean's elaborator only in so far as
  it states the theorem we think it states; proofs are re-checked by the kernel).
* Axioms: at most `propext`, `Classical.choice`, `Quot.sound`.  No axiom is added, no
  native evaluation (`native_decide`, `bv_decide`) is used; `decide +kernel` evaluates in the kernel.
  `seeded/axioms.sh` prints the axioms that every theorem named in MANIFEST.json depends on.
* The faithfulness of the hand-written model to the C++ source.  The C++ is read as
  text, never compiled here.  Every model definition cites `file:lines`.
* Mathlib modules imported one at a time (arithmetic, lists, ordered fields).

### What the model assumes about the C++ environment
* Default build configuration of CMakeLists.txt: Release (so `MCUT_ASSERT` is a no-op),
  `MCUT_WITH_COMPUTE_HELPER_THREADPOOL` on, `USE_OIBVH` on, no arbitrary-precision kernel.
* `std::mutex`, `std::atomic`, `std::future`, `std::packaged_task`, `std::thread`,
  `std::shared_ptr` meet their specification: code under one mutex is one atomic step; an atomic
  read-modify-write is one atomic step; a future becomes ready exactly when its task has returned.
* `std::vector/map/unordered_map/list/deque/stable_sort/lower_bound` meet their specification.
  Iteration order of unordered containers is an arbitrary parameter.
* Allocation never fails; no wrap-around of 32-bit counters unless the property is about it.
* Real-number geometry: coordinates are elements of an ordered field (no rounding).  Floating point
  is modelled only where a property is about it (tree level computation in bvh.cpp, C35).

### What is modelled
| model (`lean/Verif/Model/…`) | code | used by |
|----|----|----|
| `Version` | version macros of mcut.h | C02 |
| `Context` | per-context debug and state functions: mcut.cpp:85-284, frontend.cpp:93-412, frontend.h:877-915 | C03–C07 |
| `Api` | contexts, events, manager threads, client calls as a labelled transition system: frontend.h:313-470, 528-821; frontend.cpp:69-93, 419-506, 593-694, 3712-3776; mcut.cpp wrappers | C01, C08–C14, C45, C54, C55 |
| `Params` | parameter checks of every entry point (mcut.cpp), `mcGetEventInfo` | C44, C57 |
| `Release` | release calls: mcut.cpp:816-906, frontend.cpp:3712-3776 | C28 |
| `CCData` | component queries: frontend.cpp:930-985, 1815-3670 (the triangulator itself is a parameter) | C20–C27 |
| `Seam` | seam vertex sequences: frontend.cpp:2837-3057 | C46 |
| `Queue`, `OList`, `Barrier`, `Sched`, `PrefixSum`, `Find`, `Pool` | tpool.h | C15–C19, C48, C51–C53, C56 |
| `Hmesh` | hmesh.h, hmesh.cpp (without `read_off`/`write_off`) | C29–C32, C49, C50 |
| `Preproc` | client arrays to mesh, closedness, connected components: preproc.cpp:56-294, 388-455; kernel.cpp:237-350 | C33, C34, C49 |
| `Partition` | resolution of floating polygons on the mesh: preproc.cpp:514-1325 (which line is used is a parameter) | C26, C27, C38 |
| `Dispatch` | `preproc`: preproc.cpp:1628-2811, the output filters of the kernel (the kernel's geometry is a parameter) | C26, C27, C38–C40 |
| `Box`, `Morton`, `Bvh` | math.h boxes, bvh.cpp | C35–C37, C47 |
| `Geom`, `Narrow` | math.cpp:53-876 in exact arithmetic; one edge against one face: kernel.cpp:2481-2564 | C41–C43, C58, C62, C65, C69 |
| `Soup` | merging the meshes, first auxiliary mesh: kernel.cpp:1590-1776 and the vertex/face tables | C60 |
| `Pairs` | edge/face candidates: kernel.cpp:1778-2161 | C61 |
| `FaceProps` | planes, faces without area: kernel.cpp:2165-2333 | C64 |
| `Registry` | intersection points: kernel.cpp:2340-3160 | C63 |
| `CutEdges` | cut edges: kernel.cpp:3284-3560 | C66, C69 |
| `CutPaths` | cut paths: kernel.cpp:3565-3995 | C67 |
| `Floating` | floating polygons: kernel.cpp:4017-4137 | C68 |
| `Boundary` | kernel.cpp:4224-4848, 1498-1534 (edges on the face boundaries) | C70 |
| `Trace` | kernel.cpp:4853-6190 (tracing polygons) | C71 |
| `HalfPoly` | kernel.cpp:6369-6416 (users of the halfedges) | C73 |
| `SeamMesh` | kernel.cpp:3966-3993, 6226-6353 (seamed meshes) | C74 |
| `Winding` | preproc.cpp:1325-1727 (winding number, enclosure) | C75 |
| `Sides` | kernel.cpp:6443-6821 (polygons above and below, exterior polygons of the cut mesh) | C76 |
| `Split` | kernel.cpp:1183-1407, 6839-7657 (partitioning of the source mesh) | C77 |
| `Fragments` | kernel.cpp:7658-7735 (unsealed fragments) | C78 |
| `Patches` | kernel.cpp:3968-3988, 7736-8110 (patches of the cut mesh) | C79 |
| `Colours` | kernel.cpp:8112-8242, 8518-8660 (colours and places of the patches) | C80 |
| `PatchMesh` | kernel.cpp:8661-9267 (reversed patches, patch meshes) | C81 |
| `Stitch` | kernel.cpp:9253-10735 (stitching patches to fragments, sealed fragments) | C83, C84 |
| `Cdt` | cdt/triangulate.h (insert_vertices and what it calls, without walk_triangles), cdt/utils.h | C85 |
| `CdtErase` | cdt/triangulate.h (insert_edge for edges that are present, erase_outer_triangles), cdt/cdt.h: check_topology | C86 |
| `CdtWalk` | frontend.cpp:1098-1229, 1566-1806 (winding order tracker, walk over the triangles of a face) | C88 |
| `CdtFace` | frontend.cpp:1002-1806 (triangulate_face as a whole) | C89 |
| `CdtTies` | include/mcut/internal/cdt/cdt.h:120-172, source/frontend.cpp:1231-1513 | C91 |
| `InnerBorder` | kernel.cpp:8246-8512 | C92 |
| `ProjSort` | kernel.cpp:1496-1534, 3486-3508 | C93 |
| `Section` | frontend.cpp:697-864, mcut.cpp:633-634 | C94 |
| `Extract` | component extraction: kernel.cpp:366-1135 | C59, C60 |

### What is not modelled
* The rest of `kernel.cpp: dispatch` (stitching, … after the classification of the polygons along the cut: kernel.cpp:6355-6368 (early return)), the
  constrained Delaunay triangulator apart from `insert_vertices` (C85; its kd-tree and the walk to a first triangle are a parameter) and `erase_outer_triangles` (C86), with the walk over the remaining triangles (C88; not the perturbation of duplicate corners); not modelled is `insert_edge` for an edge that is not yet in the triangulation, Shewchuk's adaptive predicates (their specification, the exact sign, is assumed), timers, performance counters,
  logging text, `read_off/write_off`.
  Where another function calls them they appear as a parameter (oracle) and the theorem holds for every
  behaviour of that parameter, or under the stated hypothesis on it.
* Floating-point rounding, NaN and overflow in the geometry.

## 2. Conventions

* `lean/Verif/Model/*.lean`  – executable model, every definition with a `/repo` citation.
* `lean/Verif/Spec/*.lean`   – small independent specifications used in statements (if any needed).
* `lean/Verif/Lemmas/*.lean` – helper lemmas.
* `lean/Verif/Props/*.lean`  – the property theorems, named `Cnn_*`, with an `example` (or a `_demo` theorem)
  showing that a concrete, non-trivial case meets their hypotheses.
* Undefined behaviour, exceptions and failure are explicit outcomes in the model.
* `_partial` suffix: the English property is stronger; the comment says what is missing.
* Where the code violates the English property, a theorem with suffix `_fails` proves the negation for
  a concrete witness (or for all inputs of a kind) and a `_partial` theorem states what does hold.
* `seeded/LOG.jsonl`: wrong programs (edits of the model) and the theorems that reject them.

## 3. Property by property

| id | model | method |
|----|-------|--------|
| C01 | object counter + three object tables, all handle-creating API operations as a labelled step function | invariant over operation histories (every handle in any table or ever issued is `< counter`, issued list has no duplicates) |
| C02 | version macros on `BitVec 32` / `Nat` | bit arithmetic, div/mod round trip |
| C03 | `debug_message_control_impl`, `trailing_zeroes`, `set_bit`, `clear_bit` | loop over the constant lists; characterise the resulting word bitwise |
| C04 | `dbg_cb` step function | case analysis; history theorem: log = enabled messages in order while there is no callback |
| C05 | `get_debug_message_log_impl` loop | induction; maximal-prefix characterisation |
| C06 | `mcBindState`+`bind_state_impl`, `mcGetInfo`+`get_info_impl` as a state machine with byte sizes | induction over operation lists; last successful bind wins |
| C07 | as C06 with write extents | proved for MC_CONTEXT_FLAGS; refuted otherwise |
| C08, C09, C10, C11, C12, C13 | event object with its fields; task wrapper split into its atomic actions; user events; scheduler = arbitrary interleaving (any label sequence) | invariants over every interleaving; C11 and parts of C13 refuted with witness |
| C14 | per-queue FIFO + manager thread + queue choice | invariant: executed ++ running ++ queued = submitted |
| C15 | `thread_safe_queue` as steps under its two mutexes (dummy-node list) | refinement to FIFO for every interleaving |
| C16 | `threadsafe_list` nodes with dummy head | refinement to list/map |
| C17 | `get_scheduling_parameters`, block arithmetic of `parallel_for` | arithmetic; partition theorem |
| C18 | `parallel_partial_sum` chunk by chunk | equality with sequential scan for any commutative/associative addition |
| C19 | `parallel_find`, `parallel_find_if` with arbitrary interleaving of block searches | soundness/completeness; refutation for `parallel_find` (comma-expression bug) |
| C20 | `get_connected_components_impl` | list induction |
| C21, C22 | each data flag's size check and block-parallel copy loop as an explicit write trace | write set computed; overruns refuted with witness; partial for the flags that are right |
| C23 | reversal code | per-face reversal lemma; refutation for the triangulation flag |
| C24 | block-local arrays, atomic offset, two barriers, arbitrary order | permutation lemma over all orders |
| C25 | cache state machine, UB outcome | refutation + partial |
| C26, C27 | index mapping functions, birth-face maps maintained by partitioning | arithmetic + induction over partition history |
| C28 | release functions on tables | list lemmas |
| C29, C30, C31, C32 | halfedge mesh with arrays and removed lists | invariant over histories; C31 refuted |
| C33 | `client_input_arrays_to_hmesh` | acceptance iff validity |
| C34 | `find_connected_components` labelling | loop invariant; equality with graph components |
| C35 | integer functions of bvh.cpp, float level computation | size law; injectivity; refutation for big counts |
| C36 | `build_oibvh` bottom-up, `intersectOIBVHs` queue | soundness/completeness/once |
| C37 | bounding boxes over a linear order | lattice laws |
| C38, C39, C40 | dispatch loop with oracle kernel | invariant over loop iterations, decision logic |
| C41, C42, C43 | geometry over an ordered field | algebra |
| C44, C45 | API wrappers as functions with outcome | case analysis |
| C46 | seam walk with arbitrary order | invariant |
| C47 | `expandBits`, `morton3D` | bit-level characterisation |
| C48 | `barrier_t` as small-step machine with n threads | invariant over every interleaving |
| C49 | `mesh_is_closed` | iff lemma |
| C50 | adjacency from halfedge structure | counting through the opposite-involution |
| C51, C52, C53 | `thread_safe_queue`, `barrier_t` as interleaved steps | witness interleavings; invariant |
| C54 | `Api`: undefined behaviour as an explicit outcome of a step | classification of every step; invariant for disciplined clients |
| C55 | `Api` with fairness | progress measure over all executions |
| C56 | pool workers with one queue each, managers, jobs with barriers or promise chains | invariant + measure; deadlock witnesses |
| C57 | `mcGetEventInfo` with write extents | case analysis |
| C58 | projection matrix of math.cpp:568-651 over an ordered field | algebra: injective iff the normal avoids a plane |
| C59, C60 | `extract_connected_components`, merging of the meshes and the vertex/face tables | loop invariants; end-to-end composition |
| C61 | both versions of the edge/face pairing | loop invariants, exact edge map; composition with the broad phase |
| C62 | one edge against one face, triangles | exact case analysis over an ordered field |
| C63 | recording of the intersection points, sequential and with the thread pool, every schedule | invariant over every interleaving; exact tables |
| C64 | search for faces without area, every schedule | invariant; geometry of the zero normal |
| C65 | two triangles in general position | separation argument: zero or two common points |
| C66 | edges between common points | loop invariant over the face pairs; counting |
| C67 | chaining of the cut edges, classification | loop invariant; every edge once; open/closed |
| C68 | the scan for floating polygons | loop invariant; iff characterisation |
| C69 | C36 + C37 + C61 + C62 + C63 + C65 + C66 composed | the union of the cut edges is the intersection of the surfaces |
| C70 | dividing the edges of "ps" at the points, with and without pool | loop invariant per edge; a merged block = the same steps in sequence; sort |
| C71 | tracing the polygons of every face, with and without pool | successor map is injective on the halfedges → orbits; search invariant; parallel = sequential of the blocks |
| C72 | histories of mesh operations | induction over the history (at most one halfedge from one vertex to another) |
| C73 | table of the polygons that use a halfedge, on top of the tracing model | counting per face (boundary + cut halfedges are used up), disjointness of the polygons of a face, uniqueness of the pair of faces of a cut edge |
| C74 | the two calls of `extract_connected_components` for the seamed meshes on top of tracing | the tracing walk as a permutation; a side of a cut path is closed under turning (no repeated vertex); connectivity carried over from the input mesh; C59 for the extraction |
| C75 | the enclosure test over exact real numbers: solid angles of triangles and quadrilaterals, the (parallel) sum over the faces, the decision | the product formula for the complex numbers whose argument is the half solid angle; argument sums of closed meshes are integers; the slit argument turns them into ray counts; continuity along paths; extreme points for the boxes |
| C76 | the classification of the source mesh polygons along the cut, on top of tracing and of the table of users | every piece of the boundary that ends in a point is followed by a cut halfedge whose opposite is in the neighbour; the fold over the polygons as a list of marks; the sign of the scalar product from the two sides of the plane |
| C77 | the partitioning of the source mesh: table of flags, walks, `resolve_intersection_point_descriptor`, copies of the polygons | an invariant of the walks (which halfedges have versions, where they end, which corners share a version); every polygon with a start is walked completely; all enumeration orders |
| C78 | the extraction of the unsealed fragments, on top of the partitioning; the tables of origins | the edges of the partitioned mesh link exactly the polygons that hang together in the source mesh (C77, no loose edges, C72), so C59 applies; origins by C60; counting by induction over the list of ids |
| C79 | seeds, flood fill and tables of the cut mesh patches | the flood fill visits exactly one class of the relation "beside without a cut edge" (invariant, measure); the polygons along a path stay in one class on each side (at a point with two cut edges the next halfedges lead to the neighbour through an original edge), so the seeds at the first edges meet every class at the cut |
| C80 | neighbours, colours and places of the patches; the exterior polygons | neighbours: every cut edge separates the same two patches as the first edge of its path (C79); colours: the search with the squared adjacency matrix reaches exactly the patches at even distance (invariant, connectedness), parity of the sides; places: the exterior list is exact (C76's crossing lemmas), any permutation of it gives the same meaning |
| C81 | reversed patches, patch meshes with seams and maps | invariant of the reversal fold (each new polygon is the reverse of the old one, same face); the corners of the reversed polygon are the reverse corners up to rotation; directed sides of different polygons differ (C74), so no insertion is refused; loop over colours |
| C82 | the vertex and face maps of seamed meshes, unsealed fragments and patches, composed with merging, tracing, splitting, extraction and the renumbering of the dispatch | every vertex of an output mesh has an old number (C77, C81); below the first intersection point it is an input vertex in the same place (C60), from there on it is a seam vertex; corners of a traced polygon belong to its face (C71, C74); convexity of triangles |
| C83 | the stitching of the patches to the fragments, as they are and reversed | invariant of the walk over a patch: the table of versions is exactly the image of the part of the patch visited so far, every new vertex and edge belongs to one patch only, and a vertex on the cut is found through the versions of its neighbours (C77: one version per fan); rounds by induction on the number of polygons not yet visited; patches of one colour do not interfere, because both sides of a cut edge belong to different ones (C80) |
| C84 | the extraction of the sealed fragments from the stitched mesh, and their collection by colour | the stitched mesh is a Traced mesh again (C83), so C59 gives the pieces; a piece is a union of whole fragments and whole patches because stitching kept neighbours together; watertight: an edge of a polygon is a cut edge (then the patch of the colour is on its other side, C80, C83) or not (then its other face is the one of the input mesh, C49, C74) |
| C85 | inserting vertices in the triangulation of a face: super-triangle, insertion in a triangle or on an edge, the flip test and the flips | combinatorial core: replacing triangles and renaming neighbours keeps neighbours mutual, because two neighbours share one edge only (orientation); geometry: in-circle implies convexity of the four points, and around a corner of the super-triangle angles are ordered; no overlap and full cover: the sum of the winding numbers around any point is invariant under the three operations; termination: each flip adds a triangle around the new vertex |
| C86 | growing from the first triangle of vertex 0 with a stack, compacting and renumbering the triangles, check_topology | invariant of the flood fill: a traversed triangle that is still on the stack has all its open neighbours traversed or above it (gives termination and exactness); a sum over the sides of triangles is a sum over the boundary (involution), used with an angle function around an artificial corner, so a fan there cannot close up and must reach both outer edges; one triangle per side of an edge by geometry |
| C87 | the triangles left after erasing, against the outline as a polygon (winding numbers, shoelace area) | the edges that a spanning tree of the triangles' dual graph does not cross form a spanning tree of the vertices (count by Euler's formula from C85, connectedness by a maximal rank argument), so an uncrossed edge is a bridge: used once to show that the outline separates, once to show that the inside's dual graph is a tree, which gives n - 2; the border of any unfixed-closed set is the whole outline in one direction (no ends, one triangle per side); winding numbers and areas by cancellation |
| C88 | the winding order tracker, the first triangle, the walk with a stack that marks on popping, insertion with turning around | the dual graph of what is left is a rooted tree at any fixed edge (from C87), hence in the walk a neighbour that is not marked is never on the stack already, which gives termination and once each; induction along the walk: a triangle has its parent's side used (or the seed halfedge's), so exactly one orientation is accepted, the same for all; the tracker is related to the component by an injective renumbering that only grows |
| C89 | `triangulate_face` as a whole: flattening, reversal, insertion, edges, erasing, walk | composition of C58 (the projection is injective on the plane and multiplies orientations by one factor), C85, C87, C88; normals of all triangles are parallel to the face's, so the 2D orientation carries over to space; the areas add up because directed sides cancel except for the outline (sum of cross products over `Fills`), which also fixes the sign without knowing whether corners have been reversed |
| C90 | the triangulation query for a whole component: `trianglesOf` of `CCData` (C24) with `triangulateFace` (C89) for each face | a `Component` (C88–C90) is any mesh that mesh operations give and that has the faces and no others, so every `CopyOf` is one (`component_of_copy`); each face gives a `OneFace` (its corners only, no directed edge twice, the rim is the face); two faces with two common corners have the edge in common, so a diagonal of one face is no edge or diagonal of another one; the threads permute whole faces (C24) |
| C91 | `find_duplicates` with its dictionary, the movement of corners (both branches, with the search for the closest edge) and the rest of `triangulate_face` after it, for any places | invariant of the loop with the dictionary; C89's composition C85-C88 needs only that the corners are different when they are inserted, so it holds for the moved ones; for one duplicate algebra shows that the vector that is normalised is not zero |
| C92 | the search for the start, the walk along the border and the turn around a vertex (kernel.cpp:8246-8512), for any polygons | in a surface the step around a vertex, and the step along the border, have a unique predecessor; both start at something that has none, so no state comes twice and the number of halfedges bounds the walk; counterexample for two slits |
| C93 | the branch for more than two common points (kernel.cpp:3438-3553) of the stage in `CutEdges`, and `linear_projection_sort`, with any `std::sort` | the parameter on the line is an affine function of the projection, so consecutive = nothing between; loop invariant of C66 for any relation of wanted pairs; two points have one pair of faces in common, and the faces in both registry entries are those two, so the test asks exactly them; degrees: between two neighbours the first or last crossing of an interval would be a common point, so the parities at a common point decide on which of its sides the segment is |
| C94 | `generate_supertriangle_from_mesh_vertices` and the check of the offset in `mcEnqueueDispatchPlanarSection`, in exact arithmetic with an exact square root | the cross products are orthogonal to the normal and have the same length; the only zero one is that of a unit vector with the opposite of an axis; that the offset has no effect is seen from the definition, as `centroid` is not used; two corners are in orthogonal directions from the mean, which gives the coordinates of a point in the triangle; counterexample: a cone with most vertices at one end |

## 4. Disagreements found (the code violates the property)

Each is a theorem; the text is its comment.

* `C03_source_api_rejected_fails` — The documented source MC_DEBUG_SOURCE_API (include/mcut/mcut.h:760) is refused: API messages can only be switched on and off together with kernel messages.
* `C03_frontend_source_fails` — "Match all" does not include MC_DEBUG_SOURCE_FRONTEND: no history ever enables that source.
* `C05_null_buffer_appends_fails` — With a null `messageLog` the log itself can change: the query is reported as a debug notification, which is appended to the log when notifications are enabled and there is no callback.
* `C06_winding_order_query_fails` — The bound winding order can never be read back: every query of it is refused.
* `C06_nan_accepted_fails` — A NaN is accepted as general position enforcement constant: the documented domain (a small positive real number) is not enforced.
* `C07_overrun_fails` — For every other queryable state a too small (even empty) destination is overrun by a call reporting success.
* `C07_null_size_pointer_fails` — With both pointers null (documented as "ignored") the call writes through a null pointer.
* `C09_before_finish_fails` — "It never runs before the command has finished" is FALSE of the code: releasing the event of a command that has not started runs the registered callback (frontend.h:399-408), although the command's work has not even begun.
* `C10_skipped_dependency_fails` — "Not executed at all if a dependency did not succeed" is FALSE through a chain: a command that was given up because its dependency failed counts as a success for the commands waiting on it, and these run.
* `C10_user_event_race_fails` — It is also FALSE for user events: the future becomes ready before the error code is stored, so that a waiting manager can start the command, and the user event then reports the error.
* `C11_dependant_reports_error_fails` — The claim itself is FALSE: a command is given up because a wait-list event failed, and a caller that waits on the command is told MC_NO_ERROR.
* `C12_only_success_fails` — The "only if" half of the claim is FALSE: MC_NO_ERROR is returned for a user event that is being set to an error, since the future becomes ready before the error code is stored (frontend.cpp:480-505). Given-up commands are the subject of C11.
* `C13_failed_call_changes_nothing_fails` — "A failed call changes nothing observable" is FALSE: a call with a status that is not accepted returns MC_INVALID_VALUE but makes the event RUNNING and its waiters succeed, and a later call with a good status is refused (frontend.cpp:480-503 invokes the packaged task before it looks at the status).
* `C14_foreign_wait_list_fails` — The claim about the queue index is FALSE: with a wait list that names an unfinished command which was put into the second queue of an out-of-order context, a call for an in-order context indexes its one-element queue array with 1.
* `C17_wraps_fails` — The 32-bit guard is needed: close to `2^32` elements the rounding-up addition wraps and the code divides by zero.
* `C17_empty_range_fails` — The empty range is not handled by the scheduler (callers must not pass it; `MCUT_ASSERT` is compiled out).
* `C18_return_too_early_fails` — **C18 is violated by the code with three or more threads.** There is an interleaving in which the call has returned (the master is done) while a worker is still adding: the caller sees `[1,1,3,4]` instead of `[1,2,3,4]`.
* `C19_parallel_find_fails` — **C19 is violated by `parallel_find`.** Two threads, 4 elements (granularity 2), the match is at position 0: every run that finishes returns the end iterator.
* `C21_face_race_fails` — **C21 is violated for the faces of large components.** With three compute threads and 24576 faces there is an interleaving in which `parallel_partial_sum` has returned before the second thread added its offset. The copy uses two blocks where the prefix sum used three, the calling thread starts its block from an unfinished entry, and what reaches the client is not the face array.
* `C22_partial_copy_fails` — **C22 is violated when a caller asks for less than everything.** With a destination smaller than the array — sizes that the query accepts — the perturbation vector, faces, face sizes, adjacent faces and their sizes, edges, seam vertices and the triangulation with reversed winding order are written past the end of the caller's buffer, even for a mesh of two triangles and one thread.
* `C23_triangulation_map_fails` — **C23 is violated by the triangulation's face map.** In the reversed winding order triangle 0 of the delivered triangulation does not belong to the face that entry 0 of the delivered map names: there is a component, a history and a vertex of that triangle which is not a vertex of any face with that number.
* `C25_map_first_fails` — **C25 is violated by the code.** For every component with face maps whose triangulation was not queried before, in every history and for all arguments, the query of the triangulation's face map ends in undefined behaviour: the nested query stores the size through a null pointer.
* `C28_huge_count_fails` — The bound of C28_components_partial is needed: `(int)numConnComps` is negative from 2^31 on, the loop does not run, nothing is released and the call reports success.
* `C31_rejected_unchanged_fails` — C31 is false as stated: the insertion of `[3, 4, 0, 1]` is refused (the edge `0 → 1` is taken), but the number of edges has grown, and the triangle `[3, 4, 2]`, which could have been inserted before, is now refused, too.
* `C31_removed_face_reappears_fails` — C31, with a removed face slot: a refused insertion also makes the removed face reappear, with an incomplete boundary.
* `C35_float_rounding_fails` — **C35** fails beyond 2^23 faces: with 8388611 faces the float computation of the rightmost real node of level 23 is one too small, so the parent of the last leaf is not counted as real although it is an ancestor of a leaf.
* `C35_slot_out_of_range_fails` — **C35** fails beyond 2^23 faces: with 2^24 faces a leaf box is stored outside the array of `get_ostensibly_implicit_bvh_size` boxes.
* `C36_lost_face_fails` — **C36** fails beyond 2^23 faces: in a tree with 8388611 faces the traversal never descends to node 12582912, although it is real (it is the only way to the last face).
* `C38_first_perturbation_fails` — The claim that a dispatch never succeeds with a perturbed cut mesh that does not intersect the source mesh at all (the comment in kernel.cpp:3176-3185 says that it perturbs again) is false, for all input meshes: the counter given to the kernel lags behind by one, so after the first perturbation such a result is accepted, and nothing but the two input meshes is stored.
* `C39_unsealed_fails` — The claim for unsealed fragments is false: with the flags for location above, location undefined and inside sealing, an unsealed fragment is kept although MC_DISPATCH_FILTER_FRAGMENT_SEALING_NONE is not set.
* `C40_inputs_stored_fails` — The claim that the two input meshes are always among the components is false, for all input meshes: if their bounding volume hierarchies do not overlap, the dispatch succeeds without storing any component.
* `C41_degenerate_fails` — For a segment of length zero the answer can be wrong: the point (0,0) "overlaps" the segment from (1,0) to (2,1), of which it is no point.
* `C42_nonplanar_fails` — A face that is not planar: the two functions can disagree. Here the exact test says that the segment crosses the plane, and the kernel then asks for a point although the segment is strictly on one side of the computed plane.
* `C43_double_edge_fails` — A point on two edges of a polygon that runs back on itself is not reported on an edge: the parity of the number of edges matters.
* `C44_null_event_fails` — "pEvent can be NULL" (mcut.h): with a wait list the null pointer is accepted, the command is submitted and its handle stored through the null pointer.
* `C44_offset_fails` — The section offset must lie strictly between 0 and 1; the test for it (`offset <= 0 && offset >= 1`) is never true: every offset is accepted.
* `C44_face_sizes_fails` — A null face-size array is documented as invalid, but accepted (all faces are then triangles).
* `C45_release_race_fails` — If the context is released meanwhile the full claim is FALSE: the command is thrown away unexecuted and the call returns MC_NO_ERROR.
* `C46_branching_fails` — The restriction to paths and cycles is needed, and it is a restriction on all edges between seam vertices, not only on those of the seam: with the seam vertices 4, 5, 6, 8, where 5, 6, 8 are the corners of a face, the entries 4 and 6 are next to each other although no edge joins them.
* `C53_barrier_may_be_in_use_after_return_fails` — A participant may have returned from the barrier while another is still executing `wait()` on it: whoever owns the barrier must therefore not destroy it after merely passing it (`parallel_find_if`, tpool.h:844-871, does).
* `C51_lost_wakeup_fails` — **C51 is violated by the code.** `push` notifies without holding the mutex that the waiting consumer uses. There is an interleaving after which the queue holds a value, the only consumer sleeps, the producer's `push` has completely returned, and nobody is about to notify.
* `C54_signal_command_fails` — Without the rule on mcSetUserEventStatus: the status of a command's event is set.
* `C54_release_pending_event_fails` — Without the rule on mcReleaseEvents: the event of a queued command is released (the call succeeds), then the command starts.
* `C54_release_busy_context_fails` — Without the rule on mcReleaseContext: the context of a running command is released (the call succeeds), and the manager thread becomes its last owner and joins itself.
* `C57_null_size_fails` — A size query without a place for the size is documented as MC_INVALID_VALUE, but stores through the null pointer.
* `C59_unmarked_throws` — **C59 (exception).** When both kinds of marks exist and some polygon is connected to no marked polygon, the extraction throws.
* `C60_empty_fails` — An empty mesh is a division by zero in the versions with a thread pool.
* `C61_empty_fails` — **C61** fails for an empty face map (no face pairs): with the thread pool a division by zero, without it `end()` is dereferenced. The caller does not enter the kernel then (see C40).
* `C62_hexagram_fails` — Two triangles in one plane may overlap although all six tests do nothing: a hexagram. The corners of each are outside the other, and a side that lies in the plane of the other triangle is only tested through its end points. (C62_two_triangles excludes triangles in one plane.)
* `C64_first_cut_face_fails` — **C64** fails for the first face of the cut mesh: it is reported as a face of the source mesh, with a number that the source mesh does not have.
* `C64_running_job_fails` — **C64** fails (with the thread pool): when a face without area has been seen the calling thread does not wait for the remaining jobs. Whenever its own block contains such a face and there is a second job, it can leave the stage — and the dispatch — while that job, which reads the meshes of the dispatch, has not even begun.
* `C71_order_fails` — **C71 does not hold without the condition on the number of points:** where an edge of the face has two points, a correct `std::partition` that keeps the order of the edges lets the search come to a halfedge between the two points whose direction is that of the neighbouring face; it is not found in the list of the halfedges of the edge, and the end of that list is dereferenced (kernel.cpp:5144-5155, the assertion is compiled out). An implementation that exchanges elements from both ends happens to avoid this here.
* `C71_slit_fails` — **Cut edges that are not connected with the boundary of the face:** two cut edges that form a slit inside the triangle are dropped when the walk begins at an end of the slit, but when it begins in the middle (which depends on the order of the edges after `std::partition`, and happens with the usual implementation) the walk along the slit and back is taken for a polygon: halfedge, opposite halfedge, halfedge, opposite halfedge.
* `C72_add_edge_fails` — The condition on `add_edge` is needed: nothing stops two calls with the same vertices from making two edges.
* `C73_range_fails` — A polygon with an index that is not in the table: the access is outside of the vector.
* `C75_enclosed_missed_fails` — C75, what is missed: both meshes are watertight, the cut mesh is enclosed by the source mesh and nothing touches, but the box of the cut mesh, which `build_oibvh` enlarges, is larger than that of the source mesh. `mcDispatch` then tests the first vertex of the source mesh against the source mesh itself and reports `MC_DISPATCH_INTERSECTION_TYPE_NONE` (preproc.cpp:1674 uses `source_hmesh` where `meshA` is meant).
* `C76_below_missed_fails` — A polygon below is not recorded: where the neighbour should be looked for in the list of the polygons below, the current polygon is looked for (source/kernel.cpp:6810). The quadrangle is divided by two triangles; the part in the middle (polygon 1) lies below the one and above the other one, and the part below it (polygon 2) is not recorded.
* `C77_middle_fails` — An exception is thrown (from `at()`, source/kernel.cpp:7636) although nothing is wrong with the input: the quadrangle of `C76_demo`, with opposite corners cut off by two triangles. The part in the middle has two original corners and no edge between original vertices, so no walk ever begins in it (source/kernel.cpp:7150-7190), and its halfedges have no versions.
* `C80_two_components_fails` — **C80 (fails).** That the polygons at the cut hang together through edges cannot be dropped: of the four patches of two components (0 beside 1, 2 beside 3), patch 0 gets one colour and the three others get the other one, so that neighbours have the same colour.
* `C83_vertex_map_fails` — DEFECT. The vertex map of a sealed fragment is incomplete: the table of the vertices that stand for vertices of the cut mesh (`m1_to_m0_cm_ovtx_colored`) is filled at the very end of the loop over the halfedges of a polygon (kernel.cpp:10440-10463), after the `continue`s for halfedges without another polygon. So a vertex of a reversed patch gets no entry if the halfedges to it that are not on the cut lie on the border of the cut mesh. In the example of the two pyramids the reversed copies of two of the three bottom corners of the cut mesh are such vertices: the map has the "undefined" value for them, as if they were intersection points, although they are vertices of the input cut mesh.
* `C88_chord_fails` — Without the hypothesis on chords triangles are lost: the triangulator gives two triangles for the quad, with the diagonal that is also an edge of both its neighbours; neither triangle gets into the output, so the face is missing there.
* `C91_pairs_fails` — With two pairs, the second one is taken for something else, because the number of its partner is a number in the list without duplicates: the corner becomes "not a number" (a vector of length 0 is divided by its length). The face has an area.
* `C92_skips_fails` — The full claim — the border that a re-entrant point leads to is found — is false. The search (kernel.cpp:8298-8343) takes a halfedge that begins at any point of the queue, but what is then taken from the queue (kernel.cpp:8345) is its front. If the polygons do not come in the order of the queue, the piece found is that of another point; it is found again when that point comes to the front, and the piece of the front is lost: here vertex 1 is never found, though point 4 is in the queue and leads to it. With the queue the other way round it is found.
* `C92_corner_fails` — The simplest partial cut is affected by what `C92_skips_fails` shows. The cut mesh is a triangle with one corner, 5, on the other side of the source triangle; its sides meet the source triangle in the points 6 and 7. The corner is on the border that point 6 leads to (if 6 is the only entry point, it is found). But the entry points are 6 and 7, in this order, and the polygon that begins at point 7 comes first: the border with the corners 3 and 4 is found twice, corner 5 is not found.
* `C94_offset_fails` — **C94 (offset).** The section offset has no effect: for every mesh and every normal all offsets give the same triangle.
* `C94_check_fails` — **C94 (check).** No section offset is refused, although only those between 0 and 1 make sense.
* `C94_missed_fails` — **C94 (missed).** So a mesh that is on one side of the plane through the origin is not cut by the section, whatever the offset: all of its vertices are strictly on one side of the plane of the triangle.
* `C94_axis_fails` — **C94 (negative axis).** For every normal along a negative axis, which is accepted, the code divides by zero, for every mesh.
* `C94_small_fails` — **C94 (too small).** The triangle need not contain the whole section: a vertex of this mesh is on the plane of the triangle, but not in the triangle.

### Observations that are not theorems
* `kernel.cpp:10449-10466`: the registration of stitched vertices in `m1_to_m0_cm_ovtx_colored` is skipped by four `continue` statements (10283-10385);
  the vertex map entry of such a vertex then stays undefined (C60 takes the entries as a hypothesis).
* The sequential pairing of edges and faces (kernel.cpp:1855-1982) does not mark the first face of a patch as enqueued; with a face that is its own neighbour it erases
  `end()` (excluded by a hypothesis of C61).
* Two faces that share two edges ("pillow") lead to an intersection point of degree one (excluded by a hypothesis of C66); a face pair with a single common point is skipped
  silently (kernel.cpp:3388).
* The scan for floating polygons may skip one point of the loop (kernel.cpp:4048-4052); harmless, C68 holds with it.
* `MC_DEBUG_SEVERITY_IGNORE` and `MC_DEBUG_SEVERITY_NOTIFICATION` are the same bit (mcut.h:356-357): "ignore" cannot be told from selecting notifications (C03).
* After a floating polygon was resolved and a general position violation follows in the next iteration, maps and hierarchies of the previous iteration are reused (part of the model
  of C38; no separate theorem).
* `mcDispatch` and the data queries call `wait_for_events_impl`/`release_events_impl` outside their `try` blocks: an exception thrown there leaves the API (C44 models the call up to there).
* The face counter per component in `extract_connected_components` is written by several threads without synchronisation (kernel.cpp:779-830); its value is not used (C59).
* While the master thread merges the boundary edges of the blocks into `ps_iface_to_m0_edge_list` (kernel.cpp:4651-4660), other workers may still call `find` on that map (kernel.cpp:4506).
  By C70 no new key is ever inserted in the two-points setting, so no rehashing happens; in general it would be a data race.
* When an edge of a cut face has two intersection points, the search for the first boundary halfedge depends on the order `std::partition` leaves, and can dereference the end of a
  list (kernel.cpp:5144-5155, only an assertion guards it): `C71_order_fails`. A slit inside a face can be traced as a degenerate polygon of halfedges and their opposites: `C71_slit_fails`.
* If both meshes are watertight and the box of the cut mesh is not smaller than that of the source mesh, the second test of the enclosure check asks whether a vertex of the source mesh is inside of the source mesh
  itself (preproc.cpp:1674 uses `source_hmesh`, where the first vertex of `meshA`, the cut mesh, is meant). Since the box of the cut mesh is always enlarged by the perturbation constant
  (preproc.cpp:1994-2006), a cut mesh that nearly fills the source mesh is reported as `NONE`: `C75_enclosed_missed_fails`. A mesh whose faces are oriented inwards has winding number -1 inside and never encloses anything.
* When a neighbour is recorded as below the cut mesh, the list is searched for the current polygon instead of the neighbour (kernel.cpp:6810): if the current polygon is already recorded as below then the neighbour is
  left out, although it is below: `C76_below_missed_fails`. (In the other cases a polygon can be recorded as below more than once, which is harmless.)
* A walk of the source mesh partitioning can only begin in a polygon that has an edge between original vertices, or exactly one original vertex (kernel.cpp:7150-7190). A polygon with two original vertices and no edge
  between them — the middle part of a quadrangle with two opposite corners cut off — is never visited, and `at()` throws (kernel.cpp:7636): `C77_middle_fails`. Triangles with intersection points on two edges are not
  affected (`C77_faces_partial`).
* The table from the vertices of a sealed fragment to those of the cut mesh is filled at the end of the loop over the halfedges of a polygon, after four `continue`s (kernel.cpp:10440-10463); vertices of reversed
  patches on the border of the cut mesh can be left out, and the vertex map then calls them undefined: `C83_vertex_map_fails`. (The second search for a version of the opposite halfedge, kernel.cpp:10098-10113, looks
  up the same key as the first one and never finds anything.)
* `static std::mt19937 randGenerator(9001)` (include/mcut/internal/cdt/triangulate.h:897) has internal linkage and no lock; it is used while walking the triangles of a face (C85), so two contexts that triangulate faces
  in two threads race on it.
* A face can be missing from the triangulated output although the triangulator did its work: `triangulate_face` inserts the triangles into a mesh that already has the neighbours of the face, and if the triangulation's diagonal is also an edge of neighbours, both orientations of
  a triangle are refused and it is dropped (frontend.cpp:1744-1764): `C88_chord_fails` (a quad and two triangles that share its diagonal: no triangle of the quad is output, not even the other diagonal is tried).
* `signed_area` in `triangulate_face` (frontend.cpp:1064-1073) adds up the triangles of three consecutive corners, which is not the area of a polygon with more than three corners: the corners of a non-convex face can be reversed although they were in the right order. C89 shows that this is harmless, since either outcome gives the same result.
* The simplest partial cut loses vertices of the border: the search for the next piece of the border (kernel.cpp:8298-8343) takes a halfedge that begins at any point of the queue, but what is removed from the queue (kernel.cpp:8345) is its front, another point. `C92_corner_fails`: a cut mesh of one triangle, with one corner inside of the source mesh: the corner is not found, the border outside is found twice.
