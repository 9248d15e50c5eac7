import Verif.Model.Hmesh

/-!
# Partitioning of faces with floating polygons (source/preproc.cpp:514-1325)

`resolve_floating_polygons` on the halfedge mesh. What the geometry decides (which child face contains the floating polygon, which two edges
of it are cut and where, whether a usable line exists) is an argument (`Choice`); the changes of the mesh and of the birth-face and
new-vertex maps are modelled step by step. `none` means that an assertion of the code fails (in a release build: undefined behaviour).
-/
namespace Mcut.Partition
open Mcut.Hmesh
variable {P : Type}

/-- What the geometry chooses for one partition — preproc.cpp:752-1060: the face (`origin_face`), the positions of the two cut edges in its
halfedge list, the two new points, and the iteration order of the `unordered_map` of neighbours (1156). -/
structure Split (P : Type) where
  face : Nat
  i0 : Nat
  i1 : Nat
  p0 : P
  p1 : P
  swap : Bool

/-- The outcome of the geometric part for one floating polygon — preproc.cpp:578-740 (`skip`: an edge already passes through it), 883-905
(`fail`: no usable line, `std::logic_error`). -/
inductive Choice (P : Type) where
  | skip
  | fail
  | split (s : Split P)

/-- The halfedges of a neighbour with the two cut edges replaced — preproc.cpp:1166-1187. -/
def replaceHalfedges (e0 e1 a0 b0 a1 b1 : Nat) (old : List Nat) : List Nat :=
  old.flatMap (fun h =>
    if edgeOf h = e0 then [opposite b0, opposite a0]
    else if edgeOf h = e1 then [opposite b1, opposite a1]
    else [h])

/-- Removing a neighbour and adding its new outline — preproc.cpp:1189-1201 (the descriptor must be the old one). -/
def retrace (m : Mesh P) (n : Nat) (hs : List Nat) : Option (Mesh P) :=
  let r := (m.removeFace n).addFace (hs.map (m.removeFace n).target)
  if r.2 = some n then some r.1 else none

/-- Inner loop of the tracing of a child polygon — preproc.cpp:1253-1275: continue with the first boundary halfedge that starts where the current
one ends, until the start is reached again. `none`: no such halfedge, or the loop does not end within `fuel` steps. -/
def traceFrom (m : Mesh P) (bnd : List Nat) (stop : Nat) : Nat → Nat → Option (List Nat)
  | 0, _ => none
  | fuel + 1, h =>
    if m.target h = stop then some [h]
    else
      match bnd.find? (fun x => m.source x == some (m.target h)) with
      | none => none
      | some h' => (traceFrom m bnd stop fuel h').map (fun l => h :: l)

/-- One child polygon — preproc.cpp:1240-1300: trace it and add it as a face. -/
def addChild (m : Mesh P) (bnd : List Nat) (start : Nat) : Option (Mesh P × Nat) :=
  match m.source start with
  | none => none
  | some stop =>
    match traceFrom m bnd stop (bnd.length + 1) start with
    | none => none
    | some l =>
      if l.length < 3 then none
      else
        match m.addFace (l.map m.target) with
        | (m', some f) => some (m', f)
        | (_, none) => none

/-- The neighbours that are replaced: the faces across the two cut edges, without repetition and without the face itself —
preproc.cpp:1053-1134. -/
def neighbours (m : Mesh P) (f h0 h1 : Nat) : List Nat :=
  match m.face (opposite h0), m.face (opposite h1) with
  | none, none => []
  | some a, none => if a = f then [] else [a]
  | none, some b => if b = f then [] else [b]
  | some a, some b =>
    if a = f then (if b = f then [] else [b])
    else if b = f ∨ b = a then [a] else [a, b]

/-- The retracing loop over the neighbours — preproc.cpp:1156-1216; each comes with its old halfedges. -/
def retraceAll (sub : List Nat → List Nat) : Mesh P → List (Nat × List Nat) → Option (Mesh P)
  | m, [] => some m
  | m, (n, old) :: rest =>
    match retrace m n (sub old) with
    | none => none
    | some m' => retraceAll sub m' rest

/-- Result of a partition: mesh, the two new vertices, the two child faces. -/
structure SplitResult (P : Type) where
  mesh : Mesh P
  x0 : Nat
  x1 : Nat
  child0 : Nat
  child1 : Nat

/-- The mesh after the two vertices and the five edges have been added, and the new halfedges — preproc.cpp:1136-1158: `g` between the new
vertices, `a0`, `b0` (`a1`, `b1`) the halves of the first (second) cut edge. -/
structure Prepared (P : Type) where
  mesh : Mesh P
  x0 : Nat
  x1 : Nat
  g : Nat
  a0 : Nat
  b0 : Nat
  a1 : Nat
  b1 : Nat

/-- `add_vertex` twice, `add_edge` five times — preproc.cpp:1136-1158. -/
def prepare (m : Mesh P) (s0 t0 s1 t1 : Nat) (p0 p1 : P) : Prepared P :=
  let v0 := m.addVertex p0
  let v1 := v0.1.addVertex p1
  let g := v1.1.addEdge v0.2 v1.2
  let a0 := g.1.addEdge s0 v0.2
  let b0 := a0.1.addEdge v0.2 t0
  let a1 := b0.1.addEdge s1 v1.2
  let b1 := a1.1.addEdge v1.2 t1
  ⟨b1.1, v0.2, v1.2, g.2, a0.2, b0.2, a1.2, b1.2⟩

/-- One partition — preproc.cpp:1049-1322. -/
def splitFace (m : Mesh P) (s : Split P) : Option (SplitResult P) :=
  match (m.fh s.face)[s.i0]?, (m.fh s.face)[s.i1]? with
  | some h0, some h1 =>
    match m.source h0, m.source h1 with
    | some s0, some s1 =>
      let nbs := (neighbours m s.face h0 h1).map (fun n => (n, m.fh n))
      let q := prepare m s0 (m.target h0) s1 (m.target h1) s.p0 s.p1
      match retraceAll (replaceHalfedges (edgeOf h0) (edgeOf h1) q.a0 q.b0 q.a1 q.b1) q.mesh (if s.swap then nbs.reverse else nbs) with
      | none => none
      | some m1 =>
        let m2 := m1.removeFace s.face
        let bnd := [q.a0, q.b0, q.a1, q.b1] ++ (m.fh s.face).filter (fun h => h ≠ h0 ∧ h ≠ h1)
        match addChild m2 bnd q.g with
        | none => none
        | some (m3, c0) =>
          if c0 ≠ s.face then none
          else
            match addChild m3 bnd (opposite q.g) with
            | none => none
            | some (m4, c1) => some ⟨(m4.removeEdge (edgeOf h0)).removeEdge (edgeOf h1), q.x0, q.x1, c0, c1⟩
    | _, _ => none
  | _, _ => none

/-- One input mesh with its partition bookkeeping — preproc.cpp:1857-1876: `birth` models the map from child faces to client faces (the newest entry
of a key counts), `newV` the keys of the map of vertices that partitioning added. -/
structure Book (P : Type) where
  mesh : Mesh P
  birth : List (Nat × Nat)
  newV : List Nat

/-- Result of resolving: an assertion fails (undefined behaviour in release builds), `std::logic_error`, or the new state. -/
inductive Res (α : Type) where
  | ub
  | logicError
  | ok (a : α)

/-- One floating polygon on face `parent` — preproc.cpp:560-1322. The children of a face that was partitioned before are all looked at
(`get_vertices_around_face`), so they must exist. -/
def resolveOne (b : Book P) (parent : Nat) (ch : Choice P) : Res (Book P) :=
  let apply (s : Split P) (client : Nat) : Res (Book P) :=
    match splitFace b.mesh s with
    | none => .ub
    | some r => .ok ⟨r.mesh, (r.child1, client) :: (r.child0, client) :: b.birth, b.newV ++ [r.x0, r.x1]⟩
  match b.birth.lookup parent with
  | none =>
    match ch with
    | .skip => .ub
    | .fail => .logicError
    | .split s => if s.face = parent then apply s parent else .ub
  | some client =>
    if b.birth.any (fun e => decide (b.birth.lookup e.1 = some client ∧ b.mesh.nF ≤ e.1)) then .ub
    else
      match ch with
      | .skip => .ok b
      | .fail => .logicError
      | .split s => if b.birth.lookup s.face = some client then apply s client else .ub

/-- All floating polygons of one face — preproc.cpp:556-1323. -/
def resolveFace (b : Book P) (parent : Nat) : List (Choice P) → Res (Book P)
  | [] => .ok b
  | c :: cs =>
    match resolveOne b parent c with
    | .ub => .ub
    | .logicError => .logicError
    | .ok b' => resolveFace b' parent cs

/-- `resolve_floating_polygons` — preproc.cpp:514-1325: face ids at or above `prev` denote cut-mesh faces. The last two components tell which
mesh was modified. -/
def resolve (prev : Nat) : Book P × Book P × Bool × Bool → List (Nat × List (Choice P)) → Res (Book P × Book P × Bool × Bool)
  | st, [] => .ok st
  | (src, cut, ms, mc), (raw, cs) :: rest =>
    if raw < prev then
      if src.mesh.numFaces ≤ raw then .ub
      else
        match resolveFace src raw cs with
        | .ub => .ub
        | .logicError => .logicError
        | .ok src' => resolve prev (src', cut, true, mc) rest
    else
      if cut.mesh.numFaces ≤ raw - prev then .ub
      else
        match resolveFace cut (raw - prev) cs with
        | .ub => .ub
        | .logicError => .logicError
        | .ok cut' => resolve prev (src, cut', ms, true) rest

end Mcut.Partition
