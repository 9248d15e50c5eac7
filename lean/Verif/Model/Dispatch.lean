import Mathlib.Data.Rat.Defs
import Verif.Model.Partition
import Verif.Model.Preproc
import Verif.Model.CCData

/-!
# `preproc`: one cut from the client's arrays to stored components (source/preproc.cpp:1730-2811)

The loop around the kernel, the translation of the dispatch flags, the kernel's filters for its outputs and the storing of the components. Coordinates
and the perturbation are rational numbers (rounding is not modelled); the geometric part of the kernel is part of the environment: every
iteration brings the kernel's answer, the random numbers, the thread schedule of reading the arrays and the result of the traversal of the
bounding volume hierarchies. Time stamps, debug messages and object handles (C01) are left out.
-/
namespace Mcut.Dispatch
open Mcut.Hmesh Mcut.Preproc Mcut.Partition

/-- A point or vector. -/
abbrev Pt := ℚ × ℚ × ℚ

/-- `vec3::operator+` — include/mcut/internal/math.h:184-187 (exact). -/
def Pt.add (a b : Pt) : Pt := (a.1 + b.1, a.2.1 + b.2.1, a.2.2 + b.2.2)

/-! ## Flags -/

/-- The `keep_*` switches of the kernel — include/mcut/internal/kernel.h:150-168. -/
structure Keep where
  below : Bool
  above : Bool
  partially : Bool
  unsealed : Bool
  sealedOut : Bool
  sealedIn : Bool
  patchIn : Bool
  patchOut : Bool
  seamSrc : Bool
  seamCut : Bool
deriving DecidableEq, Repr

/-- `MC_DISPATCH_*` — include/mcut/mcut.h:380-440. -/
def fAbove : Nat := 2 ^ 5
def fBelow : Nat := 2 ^ 6
def fLocUndefined : Nat := 2 ^ 7
def fSealIn : Nat := 2 ^ 8
def fSealOut : Nat := 2 ^ 9
def fSealNone : Nat := 2 ^ 10
def fPatchIn : Nat := 2 ^ 11
def fPatchOut : Nat := 2 ^ 12
def fSeamSrc : Nat := 2 ^ 13
def fSeamCut : Nat := 2 ^ 14

/-- `dispatch_filter_flag_bitset_all` — preproc.cpp:1777-1787. -/
def filterMask : Nat := fAbove ||| fBelow ||| fLocUndefined ||| fSealIn ||| fSealOut ||| fSealNone ||| fPatchIn ||| fPatchOut ||| fSeamSrc ||| fSeamCut

/-- `static_cast<bool>(dispatchFlags & f)`. -/
def has (flags f : Nat) : Bool := flags &&& f ≠ 0

/-- Translation of the filter flags — preproc.cpp:1789-1816. -/
def keepOf (flags : Nat) : Keep :=
  if has flags filterMask then
    { below := has flags fBelow, above := has flags fAbove, sealedOut := has flags fSealOut, sealedIn := has flags fSealIn,
      unsealed := has flags fSealNone, partially := has flags fLocUndefined, patchIn := has flags fPatchIn, patchOut := has flags fPatchOut,
      seamSrc := has flags fSeamSrc, seamCut := has flags fSeamCut }
  else
    { below := true, above := true, partially := true, unsealed := true, sealedOut := true, sealedIn := true,
      patchIn := true, patchOut := true, seamSrc := true, seamCut := true }

/-- `populate_vertex_maps`, `populate_face_maps` — preproc.cpp:1774-1775; `enforce_general_position` — 1818; the intersection type — 2157, 2790. -/
def vmapOf (flags : Nat) : Bool := has flags (2 ^ 3)
def fmapOf (flags : Nat) : Bool := has flags (2 ^ 4)
def enforceOf (flags : Nat) : Bool := has flags (2 ^ 15) || has flags (2 ^ 16)
def absoluteOf (flags : Nat) : Bool := has flags (2 ^ 16)
def itypeOf (flags : Nat) : Bool := has flags (2 ^ 17)

/-! ## The kernel's outputs -/

/-- `sm_frag_location_t`, `cm_patch_location_t` — kernel.h:90-107. -/
inductive FragLoc | above | below | undefined
deriving DecidableEq, Repr
inductive PatchLoc | inside | outside | undefined
deriving DecidableEq, Repr

/-- What the geometric stages of the kernel find, before any filter: seams (with their number of faces), unsealed fragments, whether holes can be
filled, patches in default winding order, and sealed fragments. `D` is the data of an output mesh. -/
structure Cand (D : Type) where
  seamSrc : Option (D × Nat)
  seamCut : Option (D × Nat)
  unsealed : List (FragLoc × D)
  fills : Bool
  patches : List (PatchLoc × D)
  sealedFrags : List (FragLoc × PatchLoc × D)

/-- The fields of `output_t` that are stored — kernel.h:196-214. -/
structure KOut (D : Type) where
  seamSrc : Option (D × Nat)
  seamCut : Option (D × Nat)
  unsealed : List (FragLoc × D)
  inside : List D
  outside : List D
  sealedFrags : List (FragLoc × PatchLoc × D)

/-- Nothing found. -/
def KOut.none {D : Type} : KOut D := ⟨.none, .none, [], [], [], []⟩

/-- `ccID_to_keepFlag` — kernel.cpp:743-745. -/
def keepLoc (k : Keep) : FragLoc → Bool
  | .above => k.above
  | .below => k.below
  | .undefined => k.partially

/-- Skipping patches by location — kernel.cpp:8955-8958 (a patch without location is never skipped). -/
def keepPatch (k : Keep) : PatchLoc → Bool
  | .inside => k.patchIn
  | .outside => k.patchOut
  | .undefined => true

/-- Skipping colours when stitching — kernel.cpp:9482-9485. -/
def keepColour (k : Keep) : PatchLoc → Bool
  | .inside => k.sealedIn
  | .outside => k.sealedOut
  | .undefined => true

/-- Sorting by location, as the iteration over `std::map`s in preproc.cpp:2257-2266 and 2313-2319 does. -/
def byFragLoc {α : Type} (l : List (FragLoc × α)) : List (FragLoc × α) :=
  l.filter (fun x => x.1 = .above) ++ l.filter (fun x => x.1 = .below) ++ l.filter (fun x => x.1 = .undefined)
def byPatchLoc {α : Type} (l : List (FragLoc × PatchLoc × α)) : List (FragLoc × PatchLoc × α) :=
  l.filter (fun x => x.2.1 = .inside) ++ l.filter (fun x => x.2.1 = .outside) ++ l.filter (fun x => x.2.1 = .undefined)

/-- The filters of the kernel's `dispatch` — kernel.cpp:6252, 6306, 6356, 7676-7745, 7760, 8955, 9250-9262, 9482, 10565-10740. -/
def emit {D : Type} (k : Keep) (c : Cand D) : KOut D :=
  let seamS := if k.seamSrc then c.seamSrc else .none
  let seamC := if k.seamCut then c.seamCut else .none
  let o : KOut D := ⟨seamS, seamC, [], [], [], []⟩
  if !(k.below || k.above || k.partially || k.unsealed || k.sealedIn || k.sealedOut || k.patchIn || k.patchOut) then o
  else
    let o := if k.unsealed || k.partially then { o with unsealed := byFragLoc (c.unsealed.filter (fun x => keepLoc k x.1)) } else o
    if c.fills = false then o
    else if !(k.below || k.above || k.sealedIn || k.sealedOut || k.patchIn || k.patchOut) then o
    else
      let ps := c.patches.filter (fun x => keepPatch k x.1)
      let o := { o with inside := (ps.filter (fun x => x.1 = .inside)).map (fun x => x.2),
                        outside := (ps.filter (fun x => x.1 ≠ .inside)).map (fun x => x.2) }
      if !(k.below || k.above || k.partially || k.sealedIn || k.sealedOut) then o
      else if k.sealedIn || k.sealedOut then
        { o with sealedFrags := byFragLoc (byPatchLoc (c.sealedFrags.filter (fun x => keepLoc k x.1 && keepColour k x.2.1))) }
      else o

/-! ## The loop -/

/-- `status_t` — kernel.h:51-86; a detected floating polygon comes with what is to be done about it. -/
inductive Status (P : Type) where
  | success
  | invalidSrc
  | invalidCut
  | invalidIntersection
  | gpv
  | floating (l : List (Nat × List (Choice P)))

/-- What one run of the kernel finds: components, no intersection of the surfaces at all (kernel.cpp:3173-3190), one of its failures, or an
exception (preproc.cpp:2194-2199). -/
inductive Answer (D P : Type) where
  | found (c : Cand D)
  | noIntersection
  | invalidSrc
  | invalidCut
  | invalidIntersection
  | gpv
  | floating (l : List (Nat × List (Choice P)))
  | throws

/-- The kernel's status — kernel.cpp:3173-3190 for a configuration without intersection: another perturbation is asked for if
`general_position_enforcement_count > 0`. `none`: an exception. -/
def answerStatus {D P : Type} (enforce : Bool) (enf : Nat) : Answer D P → Option (Status P)
  | .found _ => some .success
  | .noIntersection => some (if enforce ∧ 0 < enf then .gpv else .success)
  | .invalidSrc => some .invalidSrc
  | .invalidCut => some .invalidCut
  | .invalidIntersection => some .invalidIntersection
  | .gpv => some .gpv
  | .floating l => some (.floating l)
  | .throws => none

/-- The kernel's output. -/
def answerOut {D P : Type} (k : Keep) : Answer D P → KOut D
  | .found c => emit k c
  | _ => .none

/-- What the client passes to `mcDispatch` and the context's settings: arrays, coordinates, flags, the number of attempts and the constant for
perturbation. `diag` is the length of the bounding box diagonal of a list of points (preproc.cpp:279-291). -/
structure Client where
  src : Arrays
  srcPts : List Pt
  cut : Arrays
  cutPts : List Pt
  flags : Nat
  attempts : Nat
  constant : ℚ
  diag : List Pt → ℚ

/-- What the environment decides in one iteration. -/
structure Iter (D : Type) where
  load : LoadEnv
  rnd : Pt
  bvhEmpty : Bool
  answer : Answer D Pt

/-- Intersection types — include/mcut/mcut.h:486-492. -/
inductive IType | standard | insideCut | insideSrc | none
deriving DecidableEq, Repr

/-- What `check_and_store_input_mesh_intersection_type` finds out geometrically: whether the root boxes overlap, which box is larger, and whether the
first query point of the respective mesh is inside (winding number 1). -/
structure Enclosure where
  overlap : Bool
  srcLarger : Bool
  insideFirst : Bool
  insideSecond : Bool

/-- `check_and_store_input_mesh_intersection_type` — preproc.cpp:1628-1727. -/
def enclosureType (sw cw : Bool) (e : Enclosure) : IType :=
  if (!sw && !cw) || !e.overlap then .none
  else if sw && cw then
    if e.insideFirst then (if e.srcLarger then .insideSrc else .insideCut)
    else if e.insideSecond then (if e.srcLarger then .insideCut else .insideSrc)
    else .none
  else if sw then (if e.insideFirst then .insideSrc else .none)
  else (if e.insideFirst then .insideCut else .none)

/-- What the kernel is called with (a record of the calls, not part of the program's state): the two meshes, the perturbation
count and vector, and the numbers of faces of the meshes over which the pairs of possibly intersecting faces were computed. -/
structure Call where
  src : Mesh Pt
  cut : Mesh Pt
  count : Nat
  pert : Pt
  pairsSrc : Nat
  pairsCut : Nat

/-- The local variables of `preproc` — preproc.cpp:1844-1903. `hier` are the numbers of faces of the meshes from which the two hierarchies were built, `pairs`
those at the last traversal. `first` is `kernel_invocation_counter == 0`. -/
structure St where
  src : Book Pt
  cut : Book Pt
  status : Status Pt
  count : Nat
  pert : Pt
  rel : ℚ
  enf : Nat
  prev : Nat
  rebuilt : Bool
  first : Bool
  hier : Nat × Nat
  pairs : Nat × Nat
  tight : Bool × Bool
  calls : List Call

/-- Error codes (preproc throws; the codes are those of the catch block of the command, frontend.h:69-89, 812). -/
inductive Err | invalidValue | invalidOperation | maxEnum
deriving DecidableEq, Repr

/-- The kind of a stored component — preproc.cpp:2248-2780. -/
inductive Kind where
  | sealedFragment (loc : FragLoc) (patch : PatchLoc)
  | unsealedFragment (loc : FragLoc)
  | patch (loc : PatchLoc)
  | seam (ofSrc : Bool)
  | input (ofSrc : Bool)
deriving DecidableEq, Repr

/-- The mesh of a stored component: the kernel's output or an input mesh with its maps. -/
inductive Data (D : Type) where
  | kernel (d : D)
  | input (m : Mesh Pt) (vmap fmap : List Nat)

/-- A stored component — preproc.cpp:2248-2780: kind, mesh, partition maps (those of the cut mesh with offsets), vertex and face counts of
the internal and of the client's source mesh, and the perturbation. -/
structure Stored (D : Type) where
  kind : Kind
  data : Data D
  srcBirth : List (Nat × Nat)
  cutBirth : List (Nat × Nat)
  srcNewV : List Nat
  cutNewV : List Nat
  internalSrcV : Nat
  clientSrcV : Nat
  internalSrcF : Nat
  clientSrcF : Nat
  pert : Pt

/-- Outcome of an iteration: another one, success with the components that were stored (front of the list first) and the intersection type that
was set, an exception (with the record of the kernel calls made before it), or undefined behaviour. -/
inductive Step (D : Type) where
  | again (s : St)
  | ok (s : St) (cs : List (Stored D)) (it : Option IType)
  | err (e : Err) (calls : List Call)
  | ub

/-- The components of a successful run — preproc.cpp:2222-2780. Every component is pushed to the front. -/
def store {D : Type} (c : Client) (s : St) (o : KOut D) : List (Stored D) :=
  let mk (k : Kind) (d : Data D) : Stored D :=
    { kind := k, data := d,
      srcBirth := s.src.birth,
      cutBirth := s.cut.birth.map (fun e => (e.1 + s.src.mesh.numFaces, e.2 + s.prev)),
      srcNewV := s.src.newV,
      cutNewV := s.cut.newV.map (fun v => v + s.src.mesh.numVertices),
      internalSrcV := s.src.mesh.numVertices, clientSrcV := c.src.numVertices,
      internalSrcF := s.src.mesh.numFaces, clientSrcF := c.src.numFaces,
      pert := s.pert }
  let seam (b : Bool) (x : Option (D × Nat)) : List (Stored D) :=
    match x with
    | some (d, n) => if 0 < n then [mk (.seam b) (.kernel d)] else []
    | .none => []
  let cutMaps (m : Mesh Pt) : Data D :=
    .input m (if vmapOf c.flags then (List.range m.numVertices).map (fun v => v + s.src.mesh.numVertices) else [])
      (if fmapOf c.flags then (List.range m.numFaces).map (fun f => f + s.src.mesh.numFaces) else [])
  let srcMaps (m : Mesh Pt) : Data D :=
    .input m (if vmapOf c.flags then List.range m.numVertices else []) (if fmapOf c.flags then List.range m.numFaces else [])
  let pushed : List (Stored D) :=
    o.sealedFrags.map (fun x => mk (.sealedFragment x.1 x.2.1) (.kernel x.2.2)) ++
    o.unsealed.map (fun x => mk (.unsealedFragment x.1) (.kernel x.2)) ++
    o.inside.map (fun d => mk (.patch .inside) (.kernel d)) ++
    o.outside.map (fun d => mk (.patch .outside) (.kernel d)) ++
    seam true o.seamSrc ++ seam false o.seamCut ++
    [mk (.input false) (cutMaps s.cut.mesh), mk (.input true) (srcMaps s.src.mesh)]
  pushed.reverse

/-- The part before the loop — preproc.cpp:1744-1915 (source mesh). -/
def start {D : Type} (c : Client) (env : LoadEnv) : Step D :=
  match loadArrays (0, 0, 0) c.src c.srcPts env with
  | .ub => .ub
  | .runtimeError => .err .invalidOperation []
  | .rejected => .err .invalidValue []
  | .mesh m =>
    if checkInputMesh m then
      .again { src := ⟨m, [], []⟩, cut := ⟨Mesh.empty (0, 0, 0), [], []⟩, status := .success, count := 0, pert := (0, 0, 0), rel := 0,
               enf := 0, prev := c.src.numFaces, rebuilt := true, first := true, hier := (m.numFaces, 0), pairs := (0, 0),
               tight := (false, false), calls := [] }
    else .err .invalidValue []

/-- Perturbing — preproc.cpp:1938-1973. `(int)attempts`: a value above the signed range is never reached. `none`: the
exception for too many attempts. -/
def perturb (c : Client) (s : St) (rnd : Pt) : Option St :=
  match s.status with
  | .gpv =>
    if (s.count : Int) = (if c.attempts < 2 ^ 31 then (c.attempts : Int) else (c.attempts : Int) - 2 ^ 32) then none
    else some { s with enf := s.count, pert := (rnd.1 * s.rel, rnd.2.1 * s.rel, rnd.2.2 * s.rel), count := s.count + 1 }
  | _ => some s

/-- Whether the cut mesh is (re)read — preproc.cpp:1975. -/
def reload (st : Status Pt) (count : Nat) : Bool :=
  match st with
  | .floating _ => false
  | .gpv => true
  | _ => count == 0

/-- Reading the cut mesh — preproc.cpp:1977-2018. -/
def readCut (c : Client) (s : St) (env : LoadEnv) : Except (Option Err) St :=
  let pts := if s.count = 0 then c.cutPts else c.cutPts.map (fun p => Pt.add p s.pert)
  match loadArrays (0, 0, 0) c.cut pts env with
  | .ub => .error none
  | .runtimeError => .error (some .invalidOperation)
  | .rejected => .error (some .invalidValue)
  | .mesh m =>
    let rel := (if absoluteOf c.flags then 1 else c.diag pts) * c.constant
    let s := { s with cut := { s.cut with mesh := m }, rel := rel }
    .ok (if s.count = 0 then { s with hier := (s.hier.1, m.numFaces), rebuilt := true } else s)

/-- Partitioning — preproc.cpp:2021-2087. -/
def partition (s : St) : Except (Option Err) St :=
  match s.status with
  | .floating l =>
    match resolve s.prev (s.src, s.cut, false, false) l with
    | .ub => .error none
    | .logicError => .error (some .maxEnum)
    | .ok (src, cut, ms, mc) =>
      .ok { s with src := src, cut := cut,
                   hier := (if ms then src.mesh.numFaces else s.hier.1, if mc then cut.mesh.numFaces else s.hier.2),
                   rebuilt := ms || mc }
  | _ => .ok s

/-- The end of an iteration: the loop condition and what follows the loop — preproc.cpp:2200-2811. -/
def finish {D : Type} (c : Client) (s : St) (o : KOut D) (enc : Enclosure) : Step D :=
  match s.status with
  | .gpv => if enforceOf c.flags then .again s else .err .invalidOperation s.calls
  | .floating _ => .again s
  | .success =>
    let cs := store c s o
    .ok s cs (if itypeOf c.flags then some (if 2 < cs.length then .standard else enclosureType s.tight.1 s.tight.2 enc) else .none)
  | _ => .err .invalidOperation s.calls

/-- The arguments of the kernel call — preproc.cpp:2178-2189. -/
def callOf (s : St) : Call := ⟨s.src.mesh, s.cut.mesh, s.count, s.pert, s.pairs.1, s.pairs.2⟩

/-- The kernel call — preproc.cpp:2178-2199. -/
def callKernel {D : Type} (c : Client) (s : St) (a : Answer D Pt) (enc : Enclosure) : Step D :=
  let s := { s with prev := s.src.mesh.numFaces,
                    calls := s.calls ++ [callOf s] }
  match answerStatus (enforceOf c.flags) s.enf a with
  | none => .err .maxEnum s.calls
  | some st => finish c { s with status := st } (answerOut (keepOf c.flags) a) enc

/-- Traversal of the hierarchies if one was rebuilt, then the kernel — preproc.cpp:2120-2199. `gpv`: this iteration was entered because of a violation of
general position. -/
def traverse {D : Type} (c : Client) (s : St) (gpv : Bool) (it : Iter D) (enc : Enclosure) : Step D :=
  if s.rebuilt then
    let s := { s with rebuilt := false, pairs := s.hier }
    if it.bvhEmpty then
      if gpv && decide (0 < s.count) then finish c { s with status := .gpv } (.none : KOut D) enc
      else .ok s [] (if itypeOf c.flags then some (enclosureType s.tight.1 s.tight.2 enc) else .none)
    else callKernel c s it.answer enc
  else callKernel c s it.answer enc

/-- One iteration of the loop — preproc.cpp:1917-2209. -/
def iterate {D : Type} (c : Client) (enc : Enclosure) (s : St) (it : Iter D) : Step D :=
  match perturb c s it.rnd with
  | none => .err .invalidOperation s.calls
  | some s1 =>
    match (if reload s.status s1.count then readCut c s1 it.load else .ok s1) with
    | .error none => .ub
    | .error (some e) => .err e s.calls
    | .ok s2 =>
      match partition s2 with
      | .error none => .ub
      | .error (some e) => .err e s.calls
      | .ok s3 =>
        if checkInputMesh s3.src.mesh = false then .err .invalidValue s.calls
        else if checkInputMesh s3.cut.mesh = false then .err .invalidValue s.calls
        else
          let s4 := { s3 with tight := if s3.first then (s3.src.mesh.isClosed, s3.cut.mesh.isClosed) else s3.tight,
                              first := false, status := .success }
          traverse c s4 (match s.status with | .gpv => true | _ => false) it enc

/-- The loop. `none`: the list of iterations is used up before the loop ends. -/
def loop {D : Type} (c : Client) (enc : Enclosure) : St → List (Iter D) → Option (Step D)
  | _, [] => none
  | s, it :: its =>
    match iterate c enc s it with
    | .again s' => loop c enc s' its
    | r => some r

/-- `preproc` — preproc.cpp:1730-2811. -/
def preproc {D : Type} (c : Client) (env : LoadEnv) (enc : Enclosure) (its : List (Iter D)) : Option (Step D) :=
  match start c env with
  | .again s => loop c enc s its
  | r => some r

/-- The context: stored components (front first) and the intersection type of the last dispatch — frontend.h:505-560. -/
structure Ctx (D : Type) where
  comps : List (Stored D)
  itype : Option IType

/-- Effect of a dispatch on the context; `none` after undefined behaviour. -/
def Ctx.after {D : Type} (x : Ctx D) : Step D → Option (Ctx D)
  | .ok _ cs it => some ⟨cs ++ x.comps, it.or x.itype⟩
  | .err _ _ => some x
  | .again _ => none
  | .ub => none

end Mcut.Dispatch
