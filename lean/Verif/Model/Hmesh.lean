import Verif.Model.Util
import Mathlib.Data.List.Rotate

/-!
# The halfedge mesh (include/mcut/internal/hmesh.h, source/hmesh.cpp)

Descriptors are natural numbers, the null descriptor (UINT_MAX) is `none`; the 32-bit size limit of descriptors is not modelled. A
`std::vector` is a length plus a function (entries beyond the length are irrelevant). Coordinates have an arbitrary type `P`.
Functions are modelled under the (documented, asserted) precondition that their descriptor arguments are in range.
-/
namespace Mcut.Hmesh

/-- `halfedge_data_t` — include/mcut/internal/hmesh.h:209-222. The target is only read after `add_edge` has set it. -/
structure HData where
  t : Nat := 0
  f : Option Nat := none
  o : Option Nat := none
  n : Option Nat := none
  p : Option Nat := none
  e : Option Nat := none
  deriving DecidableEq

/-- `hmesh_t` — include/mcut/internal/hmesh.h:433-449: `m_vertices` (point and incoming halfedges), `m_edges`, `m_halfedges`, `m_faces`
and the lists of removed descriptors (oldest first). -/
structure Mesh (P : Type) where
  nV : Nat
  nE : Nat
  nH : Nat
  nF : Nat
  pos : Nat → P
  vh : Nat → List Nat
  eh : Nat → Option Nat
  hd : Nat → HData
  fh : Nat → List Nat
  vRem : List Nat
  eRem : List Nat
  hRem : List Nat
  fRem : List Nat

variable {P : Type}

/-- `hmesh_t::hmesh_t` / `reset` — source/hmesh.cpp:95-98, 1092-1110. -/
def Mesh.empty (dflt : P) : Mesh P :=
  ⟨0, 0, 0, 0, fun _ => dflt, fun _ => [], fun _ => none, fun _ => {}, fun _ => [], [], [], [], []⟩

/-- `number_of_vertices` … `number_of_faces` — source/hmesh.cpp:128-131. -/
def Mesh.numVertices (m : Mesh P) : Nat := m.nV - m.vRem.length
/-- `number_of_edges` — source/hmesh.cpp:133-136. -/
def Mesh.numEdges (m : Mesh P) : Nat := m.nE - m.eRem.length
/-- `number_of_halfedges` — source/hmesh.cpp:138-141. -/
def Mesh.numHalfedges (m : Mesh P) : Nat := m.nH - m.hRem.length
/-- `number_of_faces` — source/hmesh.cpp:143-146. -/
def Mesh.numFaces (m : Mesh P) : Nat := m.nF - m.fRem.length

/-- `target` — source/hmesh.cpp:157-163. -/
def Mesh.target (m : Mesh P) (h : Nat) : Nat := (m.hd h).t

/-- `source` — source/hmesh.cpp:148-155: the target of the stored opposite. Reading through a null opposite is out of bounds in the code; the
model returns `none` then. -/
def Mesh.source (m : Mesh P) (h : Nat) : Option Nat := (m.hd h).o.map (fun o => (m.hd o).t)

/-- `opposite` — source/hmesh.cpp:165-175 (parity trick). -/
def opposite (h : Nat) : Nat := if h % 2 = 0 then h + 1 else h - 1

/-- `edge(h)` — source/hmesh.cpp:212-222 (parity trick). -/
def edgeOf (h : Nat) : Nat := h / 2

/-- `next` — source/hmesh.cpp:185-191. -/
def Mesh.next (m : Mesh P) (h : Nat) : Option Nat := (m.hd h).n
/-- `prev` — source/hmesh.cpp:177-183. -/
def Mesh.prev (m : Mesh P) (h : Nat) : Option Nat := (m.hd h).p
/-- `face` — source/hmesh.cpp:224-230. -/
def Mesh.face (m : Mesh P) (h : Nat) : Option Nat := (m.hd h).f

/-- `halfedge(e, i)` — source/hmesh.cpp:274-298 (parity trick). -/
def halfedgeOf (e i : Nat) : Nat := e * 2 + i

/-- `vertex(e, v)` — source/hmesh.cpp:232-255 (parity trick). -/
def Mesh.edgeVertex (m : Mesh P) (e v : Nat) : Nat := m.target (e * 2 + v)

/-- `is_border(e)` — source/hmesh.cpp:257-272. -/
def Mesh.isBorder (m : Mesh P) (e : Nat) : Bool := (m.face (halfedgeOf e 0)).isNone || (m.face (halfedgeOf e 1)).isNone

/-- `set_next` — source/hmesh.cpp:193-210 (with `set_previous`). -/
def Mesh.setNext (m : Mesh P) (h nxt : Nat) : Mesh P :=
  let hd := upd m.hd h { m.hd h with n := some nxt }
  { m with hd := upd hd nxt { hd nxt with p := some h } }

/-- `halfedge(s, t, strict_check)` — source/hmesh.cpp:302-353. -/
def Mesh.halfedge (m : Mesh P) (s t : Nat) (strict : Bool) : Option Nat :=
  let tEdges := (m.vh t).map edgeOf
  match (m.vh s).find? (fun i => tEdges.contains (edgeOf i)) with
  | none => none
  | some i =>
    if (m.source i = some s ∧ m.target i = t) then
      if strict || (m.face i).isSome then some i else none
    else
      let h := opposite i
      if strict || (m.face h).isSome then some h else none

/-- `add_vertex` — source/hmesh.cpp:361-401: reuses the oldest removed slot (its halfedge list is left as it is). -/
def Mesh.addVertex (m : Mesh P) (p : P) : Mesh P × Nat :=
  match m.vRem with
  | v :: rest => ({ m with vRem := rest, pos := upd m.pos v p }, v)
  | [] =>
    let v := m.numVertices
    ({ m with nV := m.nV + 1, vh := upd m.vh m.nV [], pos := upd m.pos v p }, v)

/-- Allocation of one halfedge — source/hmesh.cpp:408-452: the oldest removed slot (data kept), else a new default entry. -/
def Mesh.allocHalfedge (m : Mesh P) : Mesh P × Nat :=
  match m.hRem with
  | h :: rest => ({ m with hRem := rest }, h)
  | [] =>
    let h := m.numHalfedges
    ({ m with nH := m.nH + 1, hd := upd m.hd m.nH {} }, h)

/-- Allocation of an edge — source/hmesh.cpp:458-481. -/
def Mesh.allocEdge (m : Mesh P) : Mesh P × Nat :=
  match m.eRem with
  | e :: rest => ({ m with eRem := rest }, e)
  | [] =>
    let e := m.numEdges
    ({ m with nE := m.nE + 1, eh := upd m.eh m.nE none }, e)

/-- `add_edge` — source/hmesh.cpp:403-518. -/
def Mesh.addEdge (m : Mesh P) (v0 v1 : Nat) : Mesh P × Nat :=
  let r0 := m.allocHalfedge
  let h0 := r0.2
  let r1 := r0.1.allocHalfedge
  let h1 := r1.2
  let r2 := r1.1.allocEdge
  let e := r2.2
  let m := r2.1
  let m := { m with eh := upd m.eh e (some h0) }
  let m := { m with hd := upd m.hd h0 { m.hd h0 with t := v1, o := some h1, e := some e } }
  let m := { m with hd := upd m.hd h1 { m.hd h1 with t := v0, o := some h0, e := some e } }
  let m := if (m.vh v0).contains h1 then m else { m with vh := upd m.vh v0 (m.vh v0 ++ [h1]) }
  let m := if (m.vh v1).contains h0 then m else { m with vh := upd m.vh v1 (m.vh v1 ++ [h0]) }
  (m, h0)

/-- The pairs `(l[i], l[(i+1) % n])` for `i = 0 … n-1`. -/
def cycPairs {α : Type} (l : List α) : List (α × α) := l.zip (l.rotate 1)

/-- The halfedge that `add_face` uses for one polygon edge — source/hmesh.cpp:585-606: an existing one or a new one. -/
def Mesh.getOrAdd (m : Mesh P) (v0 v1 : Nat) : Mesh P × Nat :=
  match m.halfedge v0 v1 true with
  | some h => (m, h)
  | none => m.addEdge v0 v1

/-- The first loop of `add_face` — source/hmesh.cpp:541-631: `idx` is `new_face_idx`, `acc` the halfedges collected so far. The flag tells whether
the loop ran to its end (`false`: `return null_face()`). -/
def Mesh.addFaceLoop (idx : Nat) (m : Mesh P) (acc : List Nat) : List (Nat × Nat) → Mesh P × List Nat × Bool
  | [] => (m, acc, true)
  | (v0, v1) :: rest =>
    let r := m.getOrAdd v0 v1
    if (r.1.face r.2).isSome then (r.1, acc, false)
    else
      let m := { r.1 with hd := upd r.1.hd r.2 { r.1.hd r.2 with f := some idx } }
      Mesh.addFaceLoop idx m (acc ++ [r.2]) rest

/-- `add_face` — source/hmesh.cpp:520-648. With a reused slot the halfedge list is filled in place, so a failed insertion leaves the partial list in the
slot, which is no longer marked as removed. -/
def Mesh.addFace (m : Mesh P) (vi : List Nat) : Mesh P × Option Nat :=
  match m.fRem with
  | idx :: rest =>
    let r := Mesh.addFaceLoop idx { m with fRem := rest } [] (cycPairs vi)
    let m := { r.1 with fh := upd r.1.fh idx r.2.1 }
    if r.2.2 then ((cycPairs r.2.1).foldl (fun m p => m.setNext p.1 p.2) m, some idx) else (m, none)
  | [] =>
    let idx := m.numFaces
    let r := Mesh.addFaceLoop idx m [] (cycPairs vi)
    if r.2.2 then
      let m := { r.1 with nF := r.1.nF + 1, fh := upd r.1.fh r.1.nF r.2.1 }
      ((cycPairs r.2.1).foldl (fun m p => m.setNext p.1 p.2) m, some idx)
    else (r.1, none)

/-- `is_insertable` — source/hmesh.cpp:650-683. -/
def Mesh.isInsertable (m : Mesh P) (vi : List Nat) : Bool :=
  (cycPairs vi).all (fun p => match m.halfedge p.1 p.2 false with
    | some h => (m.face h).isNone
    | none => true)

/-- `get_vertices_around_face` — source/hmesh.cpp:702-730 (`prepend_offset = 0`). -/
def Mesh.verticesAroundFace (m : Mesh P) (f : Nat) : List Nat := (m.fh f).map m.target

/-- `get_vertices_around_vertex` — source/hmesh.cpp:732-758. -/
def Mesh.verticesAroundVertex (m : Mesh P) (v : Nat) : List (Option Nat) := (m.vh v).map m.source

/-- The face across halfedge `h`, if any — body of the loops of source/hmesh.cpp:767-846. -/
def Mesh.faceAcross (m : Mesh P) (h : Nat) : Option Nat :=
  match (m.hd h).o with
  | none => none
  | some o => (m.hd o).f

/-- `get_faces_around_face` — source/hmesh.cpp:767-816. -/
def Mesh.facesAroundFace (m : Mesh P) (f : Nat) : List Nat := (m.fh f).filterMap m.faceAcross

/-- `get_num_faces_around_face` — source/hmesh.cpp:818-846. -/
def Mesh.numFacesAroundFace (m : Mesh P) (f : Nat) : Nat :=
  (m.fh f).foldl (fun c h => if (m.faceAcross h).isSome then c + 1 else c) 0

/-- Body of the loop of `remove_face` for one halfedge — source/hmesh.cpp:936-963. -/
def Mesh.detach (m : Mesh P) (h : Nat) : Mesh P :=
  let hd := upd m.hd h { m.hd h with f := none }
  let hd := match (hd h).n with
    | none => hd
    | some hn =>
      let hd := upd hd hn { hd hn with p := none }
      upd hd h { hd h with n := none }
  let hd := match (hd h).p with
    | none => hd
    | some hp =>
      let hd := upd hd hp { hd hp with n := none }
      upd hd h { hd h with p := none }
  { m with hd := hd }

/-- `remove_face` — source/hmesh.cpp:926-982. -/
def Mesh.removeFace (m : Mesh P) (f : Nat) : Mesh P :=
  let m := (m.fh f).foldl Mesh.detach m
  { m with fRem := m.fRem ++ [f] }

/-- `remove_halfedge` — source/hmesh.cpp:985-1033. -/
def Mesh.removeHalfedge (m : Mesh P) (h : Nat) : Mesh P :=
  let hd := m.hd
  let hd := match (hd h).n with
    | none => hd
    | some hn =>
      let hd := upd hd hn { hd hn with p := none }
      upd hd h { hd h with n := none }
  let hd := match (hd h).o with
    | none => hd
    | some ho =>
      let hd := upd hd ho { hd ho with o := none }
      upd hd h { hd h with o := none }
  let hd := match (hd h).p with
    | none => hd
    | some hp =>
      let hd := upd hd hp { hd hp with n := none }
      upd hd h { hd h with p := none }
  { m with hd := hd, vh := upd m.vh (hd h).t ((m.vh (hd h).t).erase h), hRem := m.hRem ++ [h] }

/-- `remove_edge` with `remove_halfedges = true` (the only use) — source/hmesh.cpp:1036-1060. -/
def Mesh.removeEdge (m : Mesh P) (e : Nat) : Mesh P :=
  match m.eh e with
  | none => m
  | some h =>
    let step (m : Mesh P) (h : Nat) : Mesh P := Mesh.removeHalfedge { m with hd := upd m.hd h { m.hd h with e := none } } h
    let m := step (step m h) (opposite h)
    { m with eh := upd m.eh e none, eRem := m.eRem ++ [e] }

/-- `remove_vertex` — source/hmesh.cpp:1062-1071. -/
def Mesh.removeVertex (m : Mesh P) (v : Nat) : Mesh P := { m with vRem := m.vRem ++ [v] }

/-- The position of the first element at or after `i` that is not removed (`size` if there is none): the loops of `faces_begin()` etc.
(source/hmesh.cpp:857-923) and of `array_iterator_t::operator++` (include/mcut/internal/hmesh.h:492-516). -/
def skipRemoved (rem : List Nat) (size i : Nat) : Nat :=
  if i < size then (if rem.contains i then skipRemoved rem size (i + 1) else i) else size
termination_by size - i

/-- Iterating `for (it = begin(); it != end(); ++it)` from position `i` on. -/
def enumerateFrom (rem : List Nat) (size i : Nat) : List Nat :=
  if skipRemoved rem size i < size then
    skipRemoved rem size i :: (if i ≤ skipRemoved rem size i then enumerateFrom rem size (skipRemoved rem size i + 1) else [])
  else []
termination_by size - i

/-- `mesh_is_closed` — source/preproc.cpp:1589-1619. -/
def Mesh.isClosed (m : Mesh P) : Bool := (enumerateFrom m.hRem m.nH 0).all (fun h => (m.face h).isSome)

end Mcut.Hmesh
