import Verif.Model.Preproc

/-!
# Extraction of connected components (source/kernel.cpp)

`extract_connected_components` and `mark_seam_vertices`. `std::map`s keyed by component ids are functions; they are read in the order of the keys.
`SAFE_ACCESS` is `.at(…)` (include/mcut/internal/utils.h:110): a missing entry throws. The result `none` means that an exception was thrown.
The meshes of the kernel have no removed vertices or faces here (nothing is ever removed from them); the theorems assume it.
-/
namespace Mcut.Extract
open Mcut.Hmesh Mcut.Preproc Mcut.Sched
variable {P : Type}

/-- `sm_frag_location_t` — include/mcut/internal/kernel.h:100-104. -/
inductive Loc where
  | above
  | below
  | undefined
  deriving DecidableEq, Repr

/-- What is collected for one component: the mesh, the map from the vertices of the auxiliary mesh to its vertices (`mX_to_cc_vertex`), the inverse
(`cc_to_mX_vertex`), the seam vertices, and the faces of the auxiliary mesh in the order of insertion (`cc_to_mX_face`) — source/kernel.cpp:553-566, 754.
The two inverse maps are filled only if the maps are populated, and not read otherwise; here they are always filled. -/
structure Rec (P : Type) where
  mesh : Mesh P
  toCC : Nat → Option Nat
  fromCC : List Nat
  seams : List Nat
  faces : List Nat

/-- A new component — source/kernel.cpp:592-628. -/
def Rec.new (d : P) : Rec P := ⟨Mesh.empty d, fun _ => none, [], [], []⟩

/-- `mark_seam_vertices` — source/kernel.cpp:378-392. `after = none` is the default argument (the largest int). -/
def markSeam (m : Mesh P) (psV : Nat) (after : Option Nat) : List Bool :=
  (List.range m.numVertices).map (fun i => decide (psV ≤ i) && (match after with | none => true | some a => decide (i < a)))

/-- The seam test — source/kernel.cpp:699. -/
def isSeamVertex (flags : List Bool) (v : Nat) : Bool := flags.getD v false

/-- Mapping one vertex of a face — source/kernel.cpp:681-725: the first time it is met it is copied. -/
def mapVertex (m : Mesh P) (flags : List Bool) (r : Rec P) (v : Nat) : Rec P :=
  match r.toCC v with
  | some _ => r
  | none =>
    let a := r.mesh.addVertex (m.pos v)
    { r with mesh := a.1, toCC := upd r.toCC v (some a.2), fromCC := r.fromCC ++ [v],
             seams := if isSeamVertex flags v then r.seams ++ [a.2] else r.seams }

/-- The location of the component, updated for a face that is marked as below — source/kernel.cpp:634-648. -/
def markBelow (o : Option Loc) : Option Loc :=
  match o with
  | none => some .below
  | some .above => some .undefined
  | some l => some l

/-- The same for above — source/kernel.cpp:651-662. -/
def markAbove (o : Option Loc) : Option Loc :=
  match o with
  | none => some .above
  | some .below => some .undefined
  | some l => some l

/-- `std::binary_search` on the sorted lists (sorted at source/kernel.cpp:6820-6821) is membership. -/
def locStep (below above : List Nat) (f : Nat) (o : Option Loc) : Option Loc :=
  let o := if below.contains f then markBelow o else o
  if above.contains f then markAbove o else o

/-- State of the first loop over the faces: the components and their locations. -/
structure St (P : Type) where
  recs : Nat → Option (Rec P)
  loc : Nat → Option Loc

/-- One face of the first loop — source/kernel.cpp:579-726. `k` is the component id of the face. -/
def mapFace (d : P) (m : Mesh P) (below above : List Nat) (flags : List Bool) (k f : Nat) (s : St P) : St P :=
  ⟨upd s.recs k (some ((m.verticesAroundFace f).foldl (mapVertex m flags) ((s.recs k).getD (Rec.new d)))),
   upd s.loc k (locStep below above f (s.loc k))⟩

/-- The first loop. A face without component id cannot be looked up (`fccmap` holds -1). -/
def mapFaces (d : P) (m : Mesh P) (below above : List Nat) (flags : List Bool) : List Nat → St P → Option (St P)
  | [], s => some s
  | f :: fs, s => (faceComponent m f).bind (fun k => mapFaces d m below above flags fs (mapFace d m below above flags k f s))

/-- Which fragments the caller wants (the last three parameters) — source/kernel.cpp:425-427. -/
structure Keep where
  below : Bool
  above : Bool
  partly : Bool

/-- `ccID_to_keepFlag` — source/kernel.cpp:735-743. -/
def kept (w : Keep) (o : Option Loc) : Bool :=
  match o with
  | none => true
  | some .above => w.above
  | some .below => w.below
  | some .undefined => w.partly

/-- Inserting one remapped face — source/kernel.cpp:779-830, 852-880 (sequential version 905-955). A refused insertion is not noticed in release builds. -/
def insertFace (m : Mesh P) (f : Nat) (r : Rec P) : Option (Rec P) :=
  ((m.verticesAroundFace f).mapM r.toCC).map (fun vs => { r with mesh := (r.mesh.addFace vs).1, faces := r.faces ++ [f] })

/-- The second loop over the faces, in the order in which the blocks are merged. -/
def insertFaces (m : Mesh P) (w : Keep) (loc : Nat → Option Loc) : List Nat → (Nat → Option (Rec P)) → Option (Nat → Option (Rec P))
  | [], R => some R
  | f :: fs, R =>
    (faceComponent m f).bind (fun k =>
      if kept w (loc k) then
        (R k).bind (fun r => (insertFace m f r).bind (fun r => insertFaces m w loc fs (upd R k (some r))))
      else insertFaces m w loc fs R)

/-- The order of the second loop — source/kernel.cpp:836-899: without the thread pool the faces in order; with it the block of the calling thread (the
last one) is merged first, then the other blocks. -/
def faceOrder (n : Nat) : Option Nat → Option (List Nat)
  | none => some (List.range n)
  | some avail =>
    match parallelForBlocks n avail 1024 with
    | .error _ => none
    | .ok bs => some ((bs.getLast?.map blockIndices).getD [] ++ bs.dropLast.flatMap blockIndices)

/-- The tables for the maps to the input meshes — source/kernel.cpp:407-424. -/
structure Tables where
  m1sm : List (Option Nat)          -- m1_to_m0_sm_ovtx_colored
  m1cm : List (Nat × Nat)           -- m1_to_m0_cm_ovtx_colored
  m1face : List (Nat × Nat)         -- m1_to_m0_face_colored
  m0ps : List Nat                   -- m0_to_ps_vtx
  m0face : Nat → Option Nat         -- m0_to_ps_face
  psSm : List Nat                   -- ps_to_sm_vtx
  psSmF : List Nat                  -- ps_to_sm_face
  psCm : List Nat                   -- ps_to_cm_vtx
  psCmF : List Nat                  -- ps_to_cm_face
  smV : Nat
  smF : Nat

/-- The "m0" vertex of a vertex of the auxiliary mesh — source/kernel.cpp:1034-1055. -/
def toM0 (T : Tables) (v : Nat) : Nat :=
  let r := if v < T.m1sm.length then (T.m1sm[v]?).join else (if T.m1cm.isEmpty then none else (T.m1cm.find? (fun p => p.1 == v)).map Prod.snd)
  r.getD v

/-- One entry of the vertex map — source/kernel.cpp:1027-1080. Inner `none`: the null vertex; outer `none`: an exception. -/
def vertexOrigin (T : Tables) (v : Nat) : Option (Option Nat) :=
  let v0 := toM0 T v
  if v0 < T.m0ps.length then
    (T.m0ps[v0]?).bind (fun ps => if ps ≥ T.smV then (T.psCm[ps]?).map (fun x => some (x + T.smV)) else (T.psSm[ps]?).map some)
  else some none

/-- One entry of the face map — source/kernel.cpp:1088-1129: `f` is the face of the auxiliary mesh. -/
def faceOrigin (T : Tables) (offset f : Nat) : Option Nat :=
  let p := offset + f
  (if T.m1face.length > 0 then (T.m1face.find? (fun q => q.1 == p)).map Prod.snd else some p).bind (fun p0 =>
    (T.m0face p0).bind (fun ps => if ps ≥ T.smF then (T.psCmF[ps]?).map (fun x => x + T.smF) else T.psSmF[ps]?))

/-- `connected_component_info_t` — source/kernel.cpp:366-372. -/
structure Info where
  loc : Loc
  seams : List Nat
  vmap : List (Option Nat)
  fmap : List Nat

/-- The arguments that do not change the meshes. -/
structure Args where
  offset : Nat
  below : List Nat
  above : List Nat
  flags : List Bool
  tables : Tables
  popV : Bool
  popF : Bool
  keep : Keep

/-- The components stored so far, by id — source/kernel.cpp:399. -/
abbrev Store (P : Type) := Nat → List (Mesh P × Info)

/-- Saving one component — source/kernel.cpp:973-1130. -/
def saveOne (a : Args) (loc : Nat → Option Loc) (k : Nat) (r : Rec P) (out : Store P) : Option (Store P) :=
  if kept a.keep (loc k) then
    let proceed := match (out k).getLast? with
      | none => true
      | some c => decide (c.1.numFaces ≠ r.mesh.numFaces)
    if proceed then
      (if ¬ a.below.isEmpty ∧ ¬ a.above.isEmpty then loc k else some Loc.undefined).bind (fun l =>
        (if a.popV then (List.range r.mesh.numVertices).mapM (fun i => (r.fromCC[i]?).bind (vertexOrigin a.tables)) else some []).bind (fun vm =>
          (if a.popF then (List.range r.mesh.numFaces).mapM (fun i => (r.faces[i]?).bind (faceOrigin a.tables a.offset)) else some []).bind (fun fm =>
            some (upd out k (out k ++ [(r.mesh, ⟨l, r.seams, vm, fm⟩)])))))
    else some out
  else some out

/-- The loop over the components, in the order of their ids — source/kernel.cpp:967-1132. -/
def saveAll (a : Args) (loc : Nat → Option Loc) (R : Nat → Option (Rec P)) : List Nat → Store P → Option (Store P)
  | [], out => some out
  | k :: ks, out =>
    match R k with
    | none => saveAll a loc R ks out
    | some r => (saveOne a loc k r out).bind (saveAll a loc R ks)

/-- Inserting the traced polygons — source/kernel.cpp:439-541 (the blocks are merged in the order of the polygons). A refused polygon is not noticed in
release builds. -/
def insertPolygons (m : Mesh P) (polys : List (List Nat)) : Mesh P :=
  polys.foldl (fun m' p => (m'.addFace (p.map m.target)).1) m

/-- `extract_connected_components` — source/kernel.cpp:394-1135. `threads`: the number of threads of the pool, or `none` without the pool.
The returned pair is the merged mesh and the map `connected_components`. -/
def extract (d : P) (m : Mesh P) (polys : List (List Nat)) (a : Args) (threads : Option Nat) (out : Store P) : Option (Mesh P × Store P) :=
  let mesh := insertPolygons m polys
  let fs := enumerateFrom mesh.fRem mesh.nF 0
  (mapFaces d mesh a.below a.above a.flags fs ⟨fun _ => none, fun _ => none⟩).bind (fun s =>
    (faceOrder mesh.numFaces threads).bind (fun order =>
      (insertFaces mesh a.keep s.loc order s.recs).bind (fun R =>
        (saveAll a s.loc R (List.range (findComponents mesh).num) out).map (fun out => (mesh, out)))))

end Mcut.Extract
