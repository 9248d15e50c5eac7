import Verif.Model.Hmesh
import Verif.Model.Sched

/-!
# Input meshes (source/preproc.cpp, source/kernel.cpp)

From the client's arrays to a halfedge mesh, and the checks on it. Coordinates have an arbitrary type `P`; adding the
perturbation and converting from float happen before (`pts`). The caller's arrays are lists; reading past their end is the
caller's error. Debug messages, time stamps and the bounding box diagonal are left out.
-/
namespace Mcut.Preproc
open Mcut.Hmesh Mcut.Sched
variable {P : Type}

/-- The parameters of `client_input_arrays_to_hmesh` — source/preproc.cpp:56-66. `sizes = none`: `pFaceSizes` is null. -/
structure Arrays where
  numVertices : Nat
  numFaces : Nat
  sizes : Option (List Nat)
  indices : List Nat

/-- `assume_triangle_mesh ? 3 : pFaceSizes[faceID]` — source/preproc.cpp:165. -/
def Arrays.size (a : Arrays) (f : Nat) : Nat :=
  match a.sizes with
  | none => 3
  | some l => l.getD f 0

/-- Loop over the indices of one face — source/preproc.cpp:185-224. `vec` is `faceVertices` after `resize` (null descriptors are
`none`); the flag is `false` when the loop was left by a `break` (out of range, duplicate). -/
def fillFace (nV : Nat) (idx : Nat → Nat) (vec : List (Option Nat)) (j : Nat) : Nat → List (Option Nat) × Bool
  | 0 => (vec, true)
  | r + 1 =>
    let v := idx j
    if nV ≤ v then (vec, false)
    else if vec.contains (some v) then (vec, false)
    else fillFace nV idx (vec.set j (some v)) (j + 1) r

/-- `fn_create_faces` on the faces of one block — source/preproc.cpp:159-227: the vertex lists it stores and whether it found no error. A
size below 3 (as a signed `int`) leaves the loop over the block (the vectors of the other faces stay empty); an index error only the loop over
the face. `ps` is the array of prefix sums as this thread finds it. -/
def createBlock (a : Arrays) (ps : List Nat) : List Nat → List (List (Option Nat)) × Bool
  | [] => ([], true)
  | f :: fs =>
    let sz := a.size f
    if sz < 3 ∨ 2 ^ 31 ≤ sz then ([] :: fs.map (fun _ => []), false)
    else
      let base := ps.getD f 0 - sz
      let r := fillFace a.numVertices (fun j => a.indices.getD (base + j) 0) (List.replicate sz none) 0 sz
      let rest := createBlock a ps fs
      (r.1 :: rest.1, r.2 && rest.2)

/-- The loop of `add_faces` — source/preproc.cpp:240-260, on real vertex descriptors. -/
def addFaces (m : Mesh P) : List (List Nat) → Mesh P × Bool
  | [] => (m, true)
  | f :: fs =>
    let r := m.addFace f
    if r.2 = none then (r.1, false) else addFaces r.1 fs

/-- The vectors of a block are polygons without null descriptors (anything else is not a valid argument of `add_face`). -/
def complete (l : List (List (Option Nat))) : Bool := l.all (fun f => decide (3 ≤ f.length) && f.all Option.isSome)

/-- Stored vertex lists as arguments of `add_face`. -/
def descriptors (l : List (List (Option Nat))) : List (List Nat) := l.map (fun f => f.filterMap id)

/-- `add_faces` on the vectors of a block — source/preproc.cpp:240-260; `none`: `add_face` is called on a vector that is no polygon. -/
def addBlock (m : Mesh P) (b : List (List (Option Nat))) : Option (Mesh P × Bool) :=
  if complete b then some (addFaces m (descriptors b)) else none

/-- Loop over the futures — source/preproc.cpp:262-276: `seen i` tells whether `atm_result` was already set when the main thread loaded
it after the `i`-th `get()`. -/
def collect (seen : Nat → Bool) (i : Nat) (m : Mesh P) (okay : Bool) : List (List (List (Option Nat)) × Bool) → Option (Mesh P × Bool)
  | [] => some (m, okay)
  | b :: bs =>
    let okay := okay && !seen i
    if okay then
      match addBlock m b.1 with
      | none => none
      | some r => collect seen (i + 1) r.1 r.2 bs
    else collect seen (i + 1) m okay bs

/-- What the environment decides while the arrays are read: the number of threads, the prefix-sum array as the thread of each block finds
it, and what the main thread sees of `atm_result`. -/
structure LoadEnv where
  avail : Nat
  ps : Nat × Nat → List Nat
  seen : Nat → Bool

/-- Outcome of reading a client mesh. -/
inductive Loaded (P : Type) where
  | mesh (m : Mesh P)
  | rejected
  | ub
  | runtimeError

/-- All vertices — source/preproc.cpp:78-114. -/
def addVertices (m : Mesh P) (pts : List P) : Mesh P := pts.foldl (fun m p => (m.addVertex p).1) m

/-- `client_input_arrays_to_hmesh` — source/preproc.cpp:56-294 (with the helper pool). -/
def loadArrays (d : P) (a : Arrays) (pts : List P) (env : LoadEnv) : Loaded P :=
  let m := addVertices (Mesh.empty d) pts
  match parallelForBlocks a.numFaces env.avail 1024 with
  | .error .divByZero => .ub
  | .error .runtimeError => .runtimeError
  | .ok bs =>
    let res := bs.map (fun b => createBlock a (env.ps b) (blockIndices b))
    match collect env.seen 0 m true res.dropLast with
    | none => .ub
    | some r =>
      if r.2 = false ∨ res.any (fun b => !b.2) then .rejected
      else
        match res.getLast? with
        | none => .ub
        | some b =>
          match addBlock r.1 b.1 with
          | none => .ub
          | some r => if r.2 then .mesh r.1 else .rejected

/-- Number of vertices without a component id. -/
def unvisited (n : Nat) (visited : Nat → Option Nat) : Nat := ((List.range n).filter (fun u => (visited u).isNone)).length

theorem unvisited_lt (n : Nat) (visited : Nat → Option Nat) (v k : Nat) (hv : v < n) (hn : visited v = none) :
    unvisited n (upd visited v (some k)) < unvisited n visited := by
  unfold unvisited
  have hsub : ∀ l : List Nat, (l.filter (fun u => ((upd visited v (some k)) u).isNone)).length ≤ (l.filter (fun u => (visited u).isNone)).length ∧
      (v ∈ l → (l.filter (fun u => ((upd visited v (some k)) u).isNone)).length < (l.filter (fun u => (visited u).isNone)).length) := by
    intro l
    induction l with
    | nil => simp
    | cons x l ih =>
      by_cases hx : x = v
      · subst hx
        simp only [List.filter_cons, upd_same, Option.isNone_some, hn, Option.isNone_none, if_true]
        simp; omega
      · simp only [List.filter_cons, upd_other _ _ _ _ hx, List.mem_cons]
        have : v ≠ x := fun h => hx h.symm
        cases h : (visited x).isNone
        · simp only [Bool.false_eq_true, if_false]
          refine ⟨ih.1, fun hm => ih.2 (hm.resolve_left this)⟩
        · simp only [if_true, List.length_cons]
          refine ⟨by omega, fun hm => ?_⟩
          have := ih.2 (hm.resolve_left this); omega
  exact (hsub (List.range n)).2 (List.mem_range.2 hv)

/-- The vertices around a vertex as `find_connected_components` reads them (`get_vertices_around_vertex`). -/
def neighbours (m : Mesh P) (v : Nat) : List Nat := (m.verticesAroundVertex v).filterMap id

/-- The `while` loop of `find_connected_components` — source/kernel.cpp:282-302. The size of the vectors is `n`; `visited[v] == -1` is
`none`. An index past the end (undefined in the code) is dropped. -/
def bfs (nb : Nat → List Nat) (n k : Nat) (visited : Nat → Option Nat) (queued : Nat → Bool) : List Nat → (Nat → Option Nat) × (Nat → Bool)
  | [] => (visited, queued)
  | v :: queue =>
    if h : v < n ∧ visited v = none then
      let vis := upd visited v (some k)
      let push := (nb v).foldl (fun (s : List Nat × (Nat → Bool)) w =>
        if vis w = none ∨ s.2 w = false then (s.1 ++ [w], upd s.2 w true) else s) (queue, queued)
      bfs nb n k vis push.2 push.1
    else bfs nb n k visited queued queue
termination_by queue => (unvisited n visited, queue.length)
decreasing_by
  · exact Prod.Lex.left _ _ (unvisited_lt n visited v k h.1 h.2)
  · exact Prod.Lex.right _ (by simp)

/-- Result of the vertex part of `find_connected_components`: ids and number of components. -/
structure CCs where
  comp : Nat → Option Nat
  queued : Nat → Bool
  num : Nat

/-- `find_connected_components` — source/kernel.cpp:237-306, the loop over the vertices. The per-component vertex and face counts, which no caller
reads, are left out (the face counts are incremented by several threads without synchronisation, 333-350). -/
def findComponents (m : Mesh P) : CCs :=
  (enumerateFrom m.vRem m.nV 0).foldl (fun s u =>
    if s.comp u = none then
      let vis := upd s.comp u (some s.num)
      let ns := neighbours m u
      let q := ns.foldl (fun q w => upd q w true) (upd s.queued u true)
      let r := bfs (neighbours m) m.numVertices s.num vis q ns
      ⟨r.1, r.2, s.num + 1⟩
    else s) ⟨fun _ => none, fun _ => false, 0⟩

/-- The face part — source/kernel.cpp:308-350: every face gets the component of its first vertex. -/
def faceComponent (m : Mesh P) (f : Nat) : Option Nat := ((m.verticesAroundFace f).head?).bind (findComponents m).comp

/-- `check_input_mesh` — source/preproc.cpp:388-455 (non-coplanar faces only cause a message). -/
def checkInputMesh (m : Mesh P) : Bool :=
  if m.numVertices < 3 then false
  else if m.numFaces < 1 then false
  else decide ((findComponents m).num = 1)

end Mcut.Preproc
