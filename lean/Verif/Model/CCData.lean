import Verif.Model.Sched
/-!
# Connected component queries (source/frontend.cpp:930-985, 1815-1848, 1849-3670)

`get_connected_components_impl`, `map_internal_inputmesh_face_idx_to_user_inputmesh_face_idx` and
`get_connected_component_data_impl_detail` (the variant built with `MCUT_WITH_COMPUTE_HELPER_THREADPOOL`, which is the
default).

A query that copies data produces, per thread, the list of its writes to the client's memory: a byte offset and the
element stored there. Coordinates are values of a type `D` (the mesh's doubles) and `F` (floats, `toF` is the
conversion). 32-bit counters are natural numbers: the model covers components with fewer than 2^32 indices. Reading a
mesh (faces, edges, adjacency, vertices) is given by lists in iteration order; that the iteration of a mesh without
removed elements is 0, 1, 2, … is C32, what the adjacency lists contain is C50. The lists of the component are not
changed by queries, only the caches are. Concurrent queries of one component are not modelled.
-/
namespace Mcut.CC
open Mcut.Sched

/-- An array element in client memory. -/
inductive Cell (D F : Type) where
  | u32 (n : Nat)
  | f32 (x : F)
  | f64 (x : D)
deriving DecidableEq

/-- `sizeof` of an element. -/
def Cell.size {D F : Type} : Cell D F → Nat
  | .u32 _ => 4
  | .f32 _ => 4
  | .f64 _ => 8

/-- A store to client memory: byte offset and element. -/
abbrev Write (D F : Type) := Nat × Cell D F

/-- `McConnectedComponentType` — include/mcut/mcut.h:216-222. -/
abbrev FRAGMENT : Nat := 1
abbrev PATCH : Nat := 4
abbrev SEAM : Nat := 8
abbrev INPUT : Nat := 16

/-- `McConnectedComponentData` — include/mcut/mcut.h:293-316; `other` is any value not handled by the switch. -/
inductive Flag where
  | vertexFloat | vertexDouble | perturbation | face | faceSize | adj | adjSize | edge | type | fragLocation
  | patchLocation | sealType | origin | seamVertex | seamSeq | vertexMap | faceMap | tri | triMap | other
deriving DecidableEq, Repr

/-- `connected_component_t` and its mesh — include/mcut/internal/frontend.h:210-310; what queries never change.
`tri f` is what `triangulate_face` returns for face `f` (indices local to the face), `seq` what the traversal of the
seam returns. The two partition maps and the birth-face maps are lists of keys / key-value pairs. -/
structure Comp (D F : Type) where
  handle : Nat
  ty : Nat
  verts : List (D × D × D)
  toF : D → F
  faces : List (List Nat)
  adj : List (List Nat)
  edges : List (Nat × Nat)
  seam : List Nat
  seq : List Nat
  vmap : List Nat
  fmap : List Nat
  tri : Nat → List Nat
  pert : D × D × D
  fragLoc : Nat
  patchLoc : Nat
  sealTy : Nat
  org : Nat
  srcNewVerts : List Nat
  cutNewVerts : List Nat
  srcBirth : List (Nat × Nat)
  cutBirth : List (Nat × Nat)
  internalSrcV : Nat
  clientSrcV : Nat
  internalSrcF : Nat
  clientSrcF : Nat

/-- The caches of a component — frontend.h:245-290; `none`: not initialised. -/
structure Cache where
  sizes : Option (List Nat)
  adjSizes : Option (List Nat)
  tri : Option (List Nat)
  triMap : Option (List Nat)
  seq : List Nat
deriving DecidableEq

/-- A component fresh from a dispatch. -/
def Cache.empty : Cache := ⟨none, none, none, none, []⟩

/-- What the environment decides during a query: the number of threads (workers and master), the bound winding
order, the prefix-sum array as each copying thread finds it (indexed by that thread's block; see C18 and `PsViews` in
Spec/C21 for what it can be), and, for the triangulation, the order in which the threads reserve their part of the output and the order of all stores to the two arrays. -/
structure Env where
  avail : Nat
  reversed : Bool
  ps : Nat × Nat → List Nat
  order : List (Nat × Nat)
  wIdx : List (Nat × Nat)
  wMap : List (Nat × Nat)

/-- Outcome of a query: the size written to `*pNumBytes`, the stores of each thread, an exception, or undefined
behaviour. -/
inductive Out (D F : Type) where
  | size (n : Nat)
  | writes (threads : List (List (Write D F)))
  | invalidArgument
  | runtimeError
  | outOfRange
  | ub

section
variable {D F : Type}

/-- `get_connected_components_impl`, the command's body — frontend.cpp:952-985: `for_each` over the list of
components. Result: the value of `*numConnComps` (when the pointer is not null) and the entries written. -/
def getComponents (ccs : List (Nat × Nat)) (mask numEntries : Nat) (fill : Bool) : Nat × List Nat :=
  if fill then
    (0, ccs.foldl (fun out c => if c.2 &&& mask ≠ 0 then if out.length = numEntries then out else out ++ [c.1] else out) [])
  else (ccs.foldl (fun n c => if c.2 &&& mask ≠ 0 then n + 1 else n) 0, [])

/-- `map_internal_inputmesh_face_idx_to_user_inputmesh_face_idx` — frontend.cpp:1815-1847. -/
def userFace (c : Comp D F) (i : Nat) : Nat :=
  if i < c.internalSrcF then
    match c.srcBirth.lookup i with
    | some p => p
    | none => i
  else
    match c.cutBirth.lookup i with
    | some p => p - c.internalSrcF + c.clientSrcF
    | none => i - c.internalSrcF + c.clientSrcF

/-- `MC_UNDEFINED_VALUE` / `UINT32_MAX`. -/
abbrev UNDEF : Nat := 0xFFFFFFFF

/-- One entry of the vertex map — frontend.cpp:3121-3151 (same at 3171-3214). -/
def userVertex (c : Comp D F) (i : Nat) : Nat :=
  if i = UNDEF then UNDEF
  else if i < c.internalSrcV then if i ∈ c.srcNewVerts then UNDEF else i
  else if i ∈ c.cutNewVerts then UNDEF else i - c.internalSrcV + c.clientSrcV

/-- `parallel_for` over `n` elements — tpool.h:473-527; what the scheduler does with an empty range is in C17. -/
def par (n avail minPer : Nat) (body : Nat × Nat → List (Write D F)) : Out D F :=
  match parallelForBlocks n avail minPer with
  | .ok bs => .writes (bs.map body)
  | .error .divByZero => .ub
  | .error .runtimeError => .runtimeError

/-- The elements `b ≤ i < e` of a list. -/
def slice {α : Type} (l : List α) (b : Nat × Nat) : List α := (l.drop b.1).take (b.2 - b.1)

/-- `memcpy` of the first `n` elements of an array of 4-byte words. -/
def copyWords (l : List Nat) (n : Nat) : List (Write D F) := (l.take n).mapIdx (fun i v => (4 * i, .u32 v))

/-- Loop of MC_CONNECTED_COMPONENT_DATA_VERTEX_FLOAT — frontend.cpp:1908-1937; `off` counts components, `nv` is the
number of vertices asked for. -/
def floatLoop (toF : D → F) (nv : Nat) : Nat → List (D × D × D) → List (Write D F)
  | _, [] => []
  | off, v :: vs =>
    if (off + 1) / 3 = nv then []
    else (4 * off, .f32 (toF v.1)) :: (4 * (off + 1), .f32 (toF v.2.1)) :: (4 * (off + 2), .f32 (toF v.2.2)) ::
      floatLoop toF nv (off + 3) vs

/-- Loop of MC_CONNECTED_COMPONENT_DATA_VERTEX_DOUBLE — frontend.cpp:1985-2013. -/
def doubleLoop (nv : Nat) : Nat → List (D × D × D) → List (Write D F)
  | _, [] => []
  | off, v :: vs =>
    if off / 3 = nv then []
    else (8 * off, .f64 v.1) :: (8 * (off + 1), .f64 v.2.1) :: (8 * (off + 2), .f64 v.2.2) :: doubleLoop nv (off + 3) vs

/-- Inner loop of MC_CONNECTED_COMPONENT_DATA_FACE — frontend.cpp:2192-2214: store, advance, compare. -/
def faceInner (n : Nat) : Nat → List Nat → List (Write D F)
  | _, [] => []
  | off, v :: vs => (4 * off, .u32 v) :: if off + 1 = n then [] else faceInner n (off + 1) vs

/-- Outer loop of MC_CONNECTED_COMPONENT_DATA_FACE — frontend.cpp:2184-2215. The inner `break` does not leave it. -/
def faceOuter (flip : Bool) (n : Nat) : Nat → List (List Nat) → List (Write D F)
  | _, [] => []
  | off, f :: fs =>
    let w := faceInner n off (if flip then f.reverse else f)
    w ++ faceOuter flip n (off + w.length) fs

/-- Loop of MC_CONNECTED_COMPONENT_DATA_FACE_ADJACENT_FACE — frontend.cpp:2477-2489. -/
def adjOuter : Nat → List (List Nat) → List (Write D F)
  | _, [] => []
  | off, f :: fs => f.mapIdx (fun i v => (4 * (off + i), .u32 v)) ++ adjOuter (off + f.length) fs

/-- Loop of MC_CONNECTED_COMPONENT_DATA_EDGE — frontend.cpp:2621-2630. -/
def edgeLoop : Nat → List (Nat × Nat) → List (Write D F)
  | _, [] => []
  | off, e :: es => (4 * off, .u32 e.1) :: (4 * (off + 1), .u32 e.2) :: edgeLoop (off + 2) es

/-- Loop of MC_CONNECTED_COMPONENT_DATA_SEAM_VERTEX — frontend.cpp:2796-2804: store, advance, compare. -/
def seamLoop (n : Nat) : Nat → List Nat → List (Write D F)
  | _, [] => []
  | off, v :: vs => (4 * off, .u32 v) :: if off + 1 = n then [] else seamLoop n (off + 1) vs

/-- Loops of MC_CONNECTED_COMPONENT_DATA_VERTEX_MAP and _FACE_MAP — frontend.cpp:3112-3153, 3259-3276: compare, store,
advance. -/
def mapLoop (f : Nat → Nat) (n : Nat) : Nat → List Nat → List (Write D F)
  | _, [] => []
  | off, v :: vs => if off ≥ n then [] else (4 * off, .u32 (f v)) :: mapLoop f n (off + 1) vs

/-- Triangles of one face — frontend.cpp:3371-3423: a triangle is taken as it is, other faces are triangulated and the
local indices replaced by vertices. -/
def faceTris (c : Comp D F) (f : Nat) : List Nat :=
  let vs := c.faces.getD f []
  if vs.length = 3 then vs else (c.tri f).map (fun i => vs.getD i 0)

/-- Entries that one face adds to the triangulation's face map — frontend.cpp:3386-3392, 3410-3421: one per triangle,
that is one per index divisible by three. -/
def faceTriMap (c : Comp D F) (f : Nat) : List Nat :=
  ((List.range (faceTris c f).length).filter (fun i => i % 3 = 0)).map (fun _ => userFace c (c.fmap.getD f 0))

/-- Local triangulation array of one thread — frontend.cpp:3358-3424. -/
def triLocal (c : Comp D F) (b : Nat × Nat) : List Nat := (blockIndices b).flatMap (faceTris c)

/-- Local map array of one thread. -/
def triMapLocal (c : Comp D F) (b : Nat × Nat) : List Nat := (blockIndices b).flatMap (faceTriMap c)

/-- `cdt_index_cache_offset.fetch_add` — frontend.cpp:3427-3429: where each thread writes, when the threads come in
the given order. -/
def reserve (c : Comp D F) : Nat → List (Nat × Nat) → List ((Nat × Nat) × Nat)
  | _, [] => []
  | off, b :: bs => (b, off) :: reserve c (off + (triLocal c b).length) bs

/-- The stores of one thread to `cdt_index_cache` — frontend.cpp:3451-3458. -/
def triStores (c : Comp D F) (x : (Nat × Nat) × Nat) : List (Nat × Nat) :=
  (triLocal c x.1).mapIdx (fun i v => (x.2 + i, v))

/-- The stores of one thread to `cdt_face_map_cache` — frontend.cpp:3460-3466; `none`: `at()` throws. -/
def triMapStores (c : Comp D F) (x : (Nat × Nat) × Nat) : List (Nat × Option Nat) :=
  ((List.range (triLocal c x.1).length).filter (fun i => i % 3 = 0)).map
    (fun i => ((x.2 + i) / 3, (triMapLocal c x.1)[i / 3]?))

/-- Store into an array of which all cells exist. -/
def store (l : List Nat) (w : Nat × Nat) : List Nat := l.set w.1 w.2

/-- The triangulation part of MC_CONNECTED_COMPONENT_DATA_FACE_TRIANGULATION — frontend.cpp:3312-3563. The threads
triangulate, reserve, meet at the barrier, the master allocates, they meet again and store. -/
def triangulate (c : Comp D F) (k : Cache) (env : Env) : Except (Out D F) Cache :=
  match parallelForBlocks c.faces.length env.avail 1024 with
  | .error .divByZero => .error .ub
  | .error .runtimeError => .error .runtimeError
  | .ok _ =>
    let total := (env.order.map (fun b => (triLocal c b).length)).sum
    let idx := env.wIdx.foldl store (List.replicate total 0)
    if c.fmap = [] then .ok { k with tri := some idx }
    else if ∃ x ∈ reserve c 0 env.order, ∃ w ∈ triMapStores c x, w.2 = none ∨ w.1 ≥ total / 3 then .error .outOfRange
    else .ok { k with tri := some idx, triMap := some (env.wMap.foldl store (List.replicate (total / 3) 0)) }

/-- The triangulation is computed only once — frontend.cpp:3312. -/
def fillTri (c : Comp D F) (k : Cache) (env : Env) : Except (Out D F) Cache :=
  match k.tri with
  | some _ => .ok k
  | none => triangulate c k env

/-- A query of a scalar of `n` bytes that is copied with `memcpy(pMem, &x, bytes)` — frontend.cpp:2655-2667 and the
five cases after it. -/
def scalar (n v : Nat) (bytes : Nat) (mem : Bool) : Out D F :=
  if mem = false then .size n
  else if bytes > n then .invalidArgument
  else if bytes % n ≠ 0 then .invalidArgument
  else .writes [copyWords [v] (bytes / 4)]

/-- `MC_CONNECTED_COMPONENT_DATA_FACE_SIZE` fills `face_sizes_cache` — frontend.cpp:2284-2326, also reached from
MC_CONNECTED_COMPONENT_DATA_FACE at 2143-2155. -/
def fillSizes (c : Comp D F) (k : Cache) (env : Env) : Except (Out D F) Cache :=
  match k.sizes with
  | some _ => .ok k
  | none =>
    match parallelForBlocks c.faces.length env.avail 1024 with
    | .ok _ => .ok { k with sizes := some (c.faces.map List.length) }
    | .error .divByZero => .error .ub
    | .error .runtimeError => .error .runtimeError

/-- The same for `face_adjacent_faces_size_cache` — frontend.cpp:2539-2572, 2431-2446. -/
def fillAdjSizes (c : Comp D F) (k : Cache) (env : Env) : Except (Out D F) Cache :=
  match k.adjSizes with
  | some _ => .ok k
  | none =>
    match parallelForBlocks c.faces.length env.avail 1024 with
    | .ok _ => .ok { k with adjSizes := some (c.adj.map List.length) }
    | .error .divByZero => .error .ub
    | .error .runtimeError => .error .runtimeError

/-- A counting query — frontend.cpp:2057-2116, 2359-2404: a `parallel_for` over the faces whose results are added. -/
def countAll (c : Comp D F) (ls : List (List Nat)) (env : Env) : Out D F :=
  match parallelForBlocks c.faces.length env.avail 1024 with
  | .ok bs => .size (((bs.map (fun b => ((slice ls b).map List.length).sum)).sum) * 4)
  | .error .divByZero => .ub
  | .error .runtimeError => .runtimeError

/-- Where the thread of block `b` starts writing: `partial_sum_vec[b] - sizes[b]` — frontend.cpp:2170-2179,
2463-2472. -/
def startOf (ps sizes : List Nat) (b : Nat × Nat) : Nat := ps.getD b.1 0 - sizes.getD b.1 0

/-- `get_connected_component_data_impl_detail` — frontend.cpp:1849-3670. `mem`: `pMem` is not null; `num`: `pNumBytes`
is not null (a size query without it stores through a null pointer). -/
def query (c : Comp D F) (k : Cache) (env : Env) (flag : Flag) (bytes : Nat) (mem num : Bool) : Cache × Out D F :=
  let size (o : Out D F) : Out D F := if num then o else .ub
  match flag with
  | .vertexFloat =>                                                    -- 1881-1957
    let alloc := c.verts.length * 12
    if mem = false then (k, size (.size alloc))
    else if bytes > alloc then (k, .invalidArgument)
    else if (bytes / 4) % 3 ≠ 0 then (k, .invalidArgument)
    else (k, par c.verts.length env.avail 1024 (fun b => floatLoop c.toF (bytes / 4 / 3) (b.1 * 3) (slice c.verts b)))
  | .vertexDouble =>                                                   -- 1958-2034
    let alloc := c.verts.length * 24
    if mem = false then (k, size (.size alloc))
    else if bytes > alloc then (k, .invalidArgument)
    else if (bytes / 8) % 3 ≠ 0 then (k, .invalidArgument)
    else (k, par c.verts.length env.avail 1024 (fun b => doubleLoop (bytes / 8 / 3) (b.1 * 3) (slice c.verts b)))
  | .perturbation =>                                                   -- 2035-2051
    if mem = false then (k, size (.size 24))
    else if bytes > 24 then (k, .invalidArgument)
    else if bytes % 24 ≠ 0 then (k, .invalidArgument)
    else (k, .writes [[(0, .f64 c.pert.1), (8, .f64 c.pert.2.1), (16, .f64 c.pert.2.2)]])
  | .face =>                                                           -- 2052-2267
    if mem = false then (k, match countAll c c.faces env with | .size n => size (.size n) | o => o)
    else if bytes % 4 ≠ 0 then (k, .invalidArgument)
    else
      match fillSizes c k env with
      | .error o => (k, o)
      | .ok k' =>
        (k', par c.faces.length env.avail (1 <<< 14)
          (fun b => faceOuter env.reversed (bytes / 4) (startOf (env.ps b) (k'.sizes.getD []) b) (slice c.faces b)))
  | .faceSize =>                                                       -- 2268-2350
    if mem = false then (k, size (.size (c.faces.length * 4)))
    else if bytes > c.faces.length * 4 then (k, .invalidArgument)
    else if bytes % 4 ≠ 0 then (k, .invalidArgument)
    else
      match fillSizes c k env with
      | .error o => (k, o)
      | .ok k' => (k', .writes [copyWords (k'.sizes.getD []) c.faces.length])
  | .adj =>                                                            -- 2351-2518
    if mem = false then (k, match countAll c c.adj env with | .size n => size (.size n) | o => o)
    else if bytes % 4 ≠ 0 then (k, .invalidArgument)
    else
      match fillAdjSizes c k env with
      | .error o => (k, o)
      | .ok k' =>
        (k', par c.faces.length env.avail 1024
          (fun b => adjOuter (startOf (env.ps b) (k'.adjSizes.getD []) b) (slice c.adj b)))
  | .adjSize =>                                                        -- 2519-2597
    if mem = false then (k, size (.size (c.faces.length * 4)))
    else if bytes > c.faces.length * 4 then (k, .invalidArgument)
    else if bytes % 4 ≠ 0 then (k, .invalidArgument)
    else
      match fillAdjSizes c k env with
      | .error o => (k, o)
      | .ok k' => (k', .writes [copyWords (k'.adjSizes.getD []) c.faces.length])
  | .edge =>                                                           -- 2599-2654
    if mem = false then (k, size (.size (c.edges.length * 8)))
    else if bytes > c.edges.length * 8 then (k, .invalidArgument)
    else if bytes % 8 ≠ 0 then (k, .invalidArgument)
    else (k, par c.edges.length env.avail 1024 (fun b => edgeLoop (b.1 * 2) (slice c.edges b)))
  | .type =>                                                           -- 2655-2667
    (k, match scalar 4 c.ty bytes mem with | .size n => size (.size n) | o => o)
  | .fragLocation =>                                                   -- 2668-2689
    if c.ty ≠ FRAGMENT then (k, .invalidArgument)
    else (k, match scalar 4 c.fragLoc bytes mem with | .size n => size (.size n) | o => o)
  | .patchLocation =>                                                  -- 2690-2716
    if c.ty ≠ FRAGMENT ∧ c.ty ≠ PATCH then (k, .invalidArgument)
    else (k, match scalar 4 c.patchLoc bytes mem with | .size n => size (.size n) | o => o)
  | .sealType =>                                                       -- 2717-2736
    if c.ty ≠ FRAGMENT then (k, .invalidArgument)
    else (k, match scalar 4 c.sealTy bytes mem with | .size n => size (.size n) | o => o)
  | .origin =>                                                         -- 2738-2765
    if c.ty ≠ SEAM ∧ c.ty ≠ INPUT then (k, .invalidArgument)
    else (k, match scalar 4 c.org bytes mem with | .size n => size (.size n) | o => o)
  | .seamVertex =>                                                     -- 2766-2824
    if c.ty = INPUT then (k, .invalidArgument)
    else if mem = false then (k, size (.size (c.seam.length * 4)))
    else if bytes > c.seam.length * 4 then (k, .invalidArgument)
    else if bytes % 4 ≠ 0 then (k, .invalidArgument)
    else (k, par c.seam.length env.avail 1024 (fun b => seamLoop (bytes / 4) b.1 (slice c.seam b)))
  | .seamSeq =>                                                        -- 2825-3075
    if c.ty = INPUT then (k, .invalidArgument)
    else
      let k' := if k.seq = [] then { k with seq := c.seq } else k
      if mem = false then (k', size (.size (k'.seq.length * 4)))
      else if bytes > k'.seq.length * 4 then (k', .invalidArgument)
      else if bytes % 4 ≠ 0 then (k', .invalidArgument)
      else (k', .writes [copyWords k'.seq (bytes / 4)])
  | .vertexMap =>                                                      -- 3076-3223
    if c.vmap = [] then (k, .invalidArgument)
    else if mem = false then (k, size (.size (c.vmap.length * 4)))
    else if bytes > c.vmap.length * 4 then (k, .invalidArgument)
    else if bytes % 4 ≠ 0 then (k, .invalidArgument)
    else (k, par c.vmap.length env.avail 1024 (fun b => mapLoop (userVertex c) (bytes / 4) b.1 (slice c.vmap b)))
  | .faceMap =>                                                        -- 3224-3301
    if c.fmap = [] then (k, .invalidArgument)
    else if mem = false then (k, size (.size (c.fmap.length * 4)))
    else if bytes > c.fmap.length * 4 then (k, .invalidArgument)
    else if bytes % 4 ≠ 0 then (k, .invalidArgument)
    else (k, par c.fmap.length env.avail 1024 (fun b => mapLoop (userFace c) (bytes / 4) b.1 (slice c.fmap b)))
  | .tri =>                                                            -- 3302-3609
    match fillTri c k env with
    | .error o => (k, o)
    | .ok k' =>
      let idx := k'.tri.getD []
      if mem = false then (k', size (.size (idx.length * 4)))
      else if bytes > idx.length * 4 then (k', .invalidArgument)
      else if bytes % 4 ≠ 0 ∨ (bytes / 4) % 3 ≠ 0 then (k', .invalidArgument)
      else if env.reversed then (k', .writes [idx.mapIdx (fun i v => (4 * (idx.length - 1 - i), .u32 v))])
      else (k', .writes [copyWords idx (bytes / 4)])
  | .triMap =>                                                         -- 3610-3666
    if c.fmap = [] then (k, .invalidArgument)
    else
      -- 3632-3648: with an uninitialised cache the recursive call gets the null `data()` of the empty vector as `pMem`
      -- and a null `pNumBytes`; the triangulation allocates the vector, the pointers differ, and the size is stored
      -- through the null pointer (the combination triangulation cached, map not cached, has no history: C25)
      match k.triMap with
      | none =>
        match fillTri c k env with
        | .error o => (k, o)
        | .ok k' => (k', .ub)
      | some m =>
        if mem = false then (k, size (.size (m.length * 4)))
        else if bytes > m.length * 4 then (k, .invalidArgument)
        else if bytes % 4 ≠ 0 then (k, .invalidArgument)
        else (k, .writes [copyWords m (bytes / 4)])
  | .other => (k, .invalidArgument)                                    -- 3667-3668

end

end Mcut.CC
