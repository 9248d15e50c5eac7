import Verif.Model.HalfPoly
import Verif.Model.Soup

/-!
# Partitioning the source mesh along the cut (source/kernel.cpp:1183-1407, 6839-7735)

From "m0" another mesh "m1" is made, in which the polygons of the source mesh no longer hang together along the cut: the intersection points are duplicated, and every
intersection halfedge (a halfedge with an intersection point as one of its ends) that is used by a polygon of the source mesh gets a halfedge of "m1". `m0_to_ps_vtx`,
`m0_to_m1_vtx` are identities (C60). `m1_ivtx_to_h` is only written, never read, and is left out. `none` as result stands for an exception (`SAFE_ACCESS` is `at()`:
include/mcut/internal/utils.h:107-113), or for undefined behaviour where an end iterator or a null descriptor is used (the assertions are compiled out).
-/
namespace Mcut.Split
open Mcut.Hmesh Mcut.Extract
open Mcut.Trace (src Out)
variable {P : Type}

/-- What the stage reads. `numCut` is `m0_num_cutpath_halfedges`, `T` is `m0_h_to_ply`, `incoming` is `ivtx_to_incoming_hlist`, `reg` is
`m0_ivtx_to_intersection_registry_entry`, the intersection points are the vertices from `base` (`ps_vtx_cnt`) on; vertices below `smV` and faces below `smF` of "ps" are those
of the source mesh. `m0` has the links of `link`. -/
structure Env (P : Type) where
  ps : Mesh P
  m0 : Mesh P
  smV : Nat
  smF : Nat
  base : Nat
  numCut : Nat
  reg : List (Nat × Nat)
  T : Nat → List Nat
  incoming : Nat → List Nat
  polygons : List (List Nat)
  smCount : Nat

/-- What the stage changes: "m1", `m0_to_m1_ihe`, `m0_sm_ihe_to_flag`, `m0_ox_hlist` (its last element is the first one here). -/
structure St (P : Type) where
  m1 : Mesh P
  ihe : Nat → Option Nat
  flag : Nat → Option Bool
  queue : List Nat

/-- A halfedge is entered in `m0_sm_ihe_to_flag`, if a polygon uses it — source/kernel.cpp:6937-6961. -/
def addKey (T : Nat → List Nat) (K : List Nat) (h : Nat) : List Nat := if T h ≠ [] ∧ h ∉ K then K ++ [h] else K

/-- Both halfedges of the edge of halfedge `h` are entered, unless it is known to be of the cut mesh — source/kernel.cpp:6862-6961. -/
def addKeys (m0 : Mesh P) (smV base : Nat) (T : Nat → List Nat) (K : List Nat) (h : Nat) : List Nat :=
  let e := edgeOf h
  let v0 := m0.edgeVertex e 0
  let v1 := m0.edgeVertex e 1
  if v0 < base ∧ v1 < base then K
  else if base ≤ v0 ∧ v1 < base ∧ smV ≤ v1 then K
  else if v0 < base ∧ base ≤ v1 ∧ smV ≤ v0 then K
  else addKey T (addKey T K (halfedgeOf e 0)) (halfedgeOf e 1)

/-- The keys of `m0_sm_ihe_to_flag` — source/kernel.cpp:6854-6963. The order in which the points are visited is that of an unordered map. -/
def keysOf (m0 : Mesh P) (smV base : Nat) (T : Nat → List Nat) (incoming : Nat → List Nat) (points : List Nat) : List Nat :=
  (points.flatMap incoming).foldl (addKeys m0 smV base T) []

/-- One edge of "m0" is copied to "m1", if none of its ends is an intersection point — source/kernel.cpp:7021-7044. -/
def copyEdge (m0 : Mesh P) (base : Nat) (s : Mesh P × (Nat → Option Nat)) (e : Nat) : Mesh P × (Nat → Option Nat) :=
  let v0 := m0.edgeVertex e 0
  let v1 := m0.edgeVertex e 1
  if v0 < base ∧ v1 < base then
    let r := s.1.addEdge v0 v1
    let g0 := if src m0 (halfedgeOf e 0) = src r.1 r.2 then r.2 else opposite r.2
    (r.1, fun x => if x = halfedgeOf e 0 then some g0 else if x = halfedgeOf e 1 then some (opposite g0) else s.2 x)
  else s

/-- `m0_to_m1_he`, and "m1" with these edges — source/kernel.cpp:7018-7044. -/
def copyEdges (m0 : Mesh P) (base : Nat) (m1 : Mesh P) : Mesh P × (Nat → Option Nat) :=
  (enumerateFrom m0.eRem m0.nE 0).foldl (copyEdge m0 base) (m1, fun _ => none)

/-- The halfedges of a polygon are linked — source/kernel.cpp:7066-7079. -/
def linkOne (m0 : Mesh P) (p : List Nat) : Mesh P :=
  (List.range p.length).foldl (fun m i => m.setNext (p.getD i 0) (p.getD ((i + 1) % p.length) 0)) m0

/-- The halfedges of the polygons of the source mesh are linked — source/kernel.cpp:7060-7080. -/
def link (m0 : Mesh P) (polys : List (List Nat)) : Mesh P := polys.foldl linkOne m0

/-- `m0_is_intersection_point` for one of the ends. -/
def isInter (E : Env P) (h : Nat) : Prop := E.base ≤ src E.m0 h ∨ E.base ≤ E.m0.target h
instance (E : Env P) (h : Nat) : Decidable (isInter E h) := by unfold isInter; infer_instance

/-- `is_strictly_cs_h`: is the halfedge known to belong to the cut mesh only? — source/kernel.cpp:1241-1287. -/
def strict (E : Env P) (g : Nat) : Option Bool :=
  let s := src E.m0 g
  let t := E.m0.target g
  if (s < E.base ∧ E.smV ≤ s) ∨ (t < E.base ∧ E.smV ≤ t) then some true
  else if E.base ≤ s ∧ E.base ≤ t ∧ E.numCut ≤ g then
    (E.reg[s - E.base]?).bind (fun r => ((E.ps.face (halfedgeOf r.1 0)).or (E.ps.face (halfedgeOf r.1 1))).map (fun f => decide (E.smF ≤ f)))
  else some false

/-- `halfedges_across_cut_path`: the halfedges that are not of the cut mesh only, are used, and are processed — source/kernel.cpp:1231-1299. -/
def across (E : Env P) (flag : Nat → Option Bool) : List Nat → Option (List Nat)
  | [] => some []
  | g :: l => (strict E g).bind (fun c =>
    if c || (E.T g).isEmpty then across E flag l
    else (flag g).bind (fun b => (across E flag l).map (fun r => if b then g :: r else r)))

/-- A copy of the point where the "m1" version of halfedge `h` ends — source/kernel.cpp:1334-1339, 1390-1402. -/
def duplicate (s : St P) (h : Nat) : Option (Mesh P × Nat) := (s.ihe h).map (fun k => s.m1.addVertex (s.m1.pos (s.m1.target k)))

/-- The point where the "m1" version of halfedge `h` ends — source/kernel.cpp:1384-1387. -/
def reuse (s : St P) (h : Nat) : Option (Mesh P × Nat) := (s.ihe h).map (fun k => (s.m1, s.m1.target k))

/-- The processed halfedge on the same side of the cut as `h`, if there is one — source/kernel.cpp:1314-1330, 1342-1379. -/
def sameSide (E : Env P) (flag : Nat → Option Bool) (h v : Nat) (ox : Bool) : Option (Option Nat) :=
  if ox then
    if (E.T (opposite h)).isEmpty then some none
    else (E.m0.prev (opposite h)).bind (fun p => (flag p).map (fun b => if b then some p else none))
  else (E.m0.next h).bind (fun n =>
    if (E.T (opposite n)).isEmpty then some none
    else (flag (opposite n)).map (fun b =>
      if b = true ∧ (¬ (E.base ≤ v ∧ E.base ≤ E.m0.target n) ∨ E.numCut ≤ n) then some (opposite n) else none))

/-- `resolve_intersection_point_descriptor`: the instance of point `v` in which the "m1" version of halfedge `h` should end — source/kernel.cpp:1194-1407. -/
def resolve (E : Env P) (s : St P) (h v : Nat) (ox : Bool) : Option (Mesh P × Nat) :=
  (across E s.flag (E.incoming v)).bind (fun l =>
    match l with
    | [] => some (s.m1, v)
    | g :: _ =>
      if ox = false ∧ (E.T h).isEmpty then duplicate s g
      else (sameSide E s.flag h v ox).bind (fun r => match r with
        | some p => reuse s p
        | none => duplicate s g))

/-- The point of "m1" in which the version of halfedge `h` ends; `n` is the next halfedge — source/kernel.cpp:7279-7304. -/
def endOf (E : Env P) (s : St P) (h n : Nat) : Option (Mesh P × Nat) :=
  if E.base ≤ E.m0.target h then
    match s.ihe n with
    | some k => some (s.m1, src s.m1 k)
    | none => resolve E s h (E.m0.target h) (decide (src E.m0 h < E.base))
  else some (s.m1, E.m0.target h)

/-- The point of "m1" in which the version of halfedge `h` begins; the walk has begun with `init` — source/kernel.cpp:7307-7338. -/
def startOf (E : Env P) (s : St P) (init h : Nat) : Option (Mesh P × Nat) :=
  if E.base ≤ src E.m0 h then
    if h = init then resolve E s (opposite h) (src E.m0 h) false
    else (E.m0.prev h).bind (fun p => (s.ihe p).map (fun k => (s.m1, s.m1.target k)))
  else some (s.m1, src E.m0 h)

/-- The "m1" version of halfedge `h` is made, and that of its opposite if it is on the boundary of a face and used — source/kernel.cpp:7351-7436. -/
def makeEdge (E : Env P) (s : St P) (h a b : Nat) : St P :=
  if h < E.numCut ∨ s.ihe h = none then
    let r := s.m1.addEdge a b
    let i1 : Nat → Option Nat := fun x => if x = h ∧ s.ihe h = none then some r.2 else s.ihe x
    let i2 : Nat → Option Nat := fun x => if E.numCut ≤ h ∧ E.T (opposite h) ≠ [] ∧ x = opposite h ∧ i1 x = none then some (opposite r.2) else i1 x
    { s with m1 := r.1, ihe := i2 }
  else s

/-- Where the next walk should begin: the opposite of a halfedge that leads away from the cut — source/kernel.cpp:7438-7457. -/
def enqueue (E : Env P) (s : St P) (init h n : Nat) : Option (St P) :=
  if E.base ≤ src E.m0 h ∧ E.m0.target h < E.base ∧ E.T (opposite h) ≠ [] then
    (s.flag (opposite h)).map (fun b =>
      if b = false ∧ ((E.base ≤ E.m0.target n ∧ n = init) ∨ ¬ E.base ≤ E.m0.target n) then { s with queue := opposite h :: s.queue } else s)
  else some s

/-- The flag of halfedge `h` is set; it must have an entry — source/kernel.cpp:7459-7461. -/
def done (s : St P) (h : Nat) : Option (St P) := (s.flag h).map (fun _ => { s with flag := fun x => if x = h then some true else s.flag x })

/-- One halfedge of a walk; `n` is the next one — source/kernel.cpp:7260-7461. -/
def visit (E : Env P) (init h n : Nat) (s : St P) : Option (St P) :=
  (endOf E s h n).bind (fun t => (startOf E { s with m1 := t.1 } init h).bind (fun a =>
    (enqueue E (makeEdge E { s with m1 := a.1 } h a.2 t.2) init h n).bind (fun s' => done s' h)))

/-- A walk along the halfedges of a polygon; the first argument bounds the number of steps: each sets a flag — source/kernel.cpp:7251-7467. -/
def sequence (E : Env P) (init : Nat) : Nat → Nat → St P → Option (St P)
  | 0, _, _ => none
  | f + 1, h, s => (E.m0.next h).bind (fun n => (visit E init h n s).bind (fun s' =>
    if isInter E n then (s'.flag n).bind (fun b => if b then some s' else sequence E init f n s') else some s'))

/-- The walks from the queue; the first two arguments bound the number of walks and of their steps — source/kernel.cpp:7244-7469. -/
def drain (E : Env P) (w : Nat) : Nat → St P → Option (St P)
  | 0, _ => none
  | f + 1, s => match s.queue with
    | [] => some s
    | h :: q => (sequence E h w h { s with queue := q }).bind (drain E w f)

/-- May a walk begin with halfedge `h`, which leads to the cut? — source/kernel.cpp:7130-7190. -/
def mayStart (E : Env P) (flag : Nat → Option Bool) (h : Nat) : Option Bool :=
  if E.base ≤ src E.m0 h ∨ flag h = some true ∨ ¬ E.base ≤ E.m0.target h ∨ E.T h = [] then some false
  else ((E.T h).head?).bind (fun i => (E.polygons[i]?).bind (fun p =>
    (p[(p.idxOf h + p.length - 1) % p.length]?).map (fun g =>
      decide (E.m0.target g < E.base) && (decide (src E.m0 g < E.base) || decide (p.countP (fun x => decide (E.m0.target x < E.base)) = 1)))))

/-- May a walk begin with halfedge `h` between two points of an edge? — source/kernel.cpp:7493-7545. -/
def mayStartInside (E : Env P) (flag : Nat → Option Bool) (h : Nat) : Option Bool :=
  if flag h = some true ∨ ¬ (E.base ≤ src E.m0 h ∧ E.base ≤ E.m0.target h) ∨ h < E.numCut then some false
  else ((E.T h).head?).map (fun i => decide (i < E.smCount))

/-- `std::find_if` with a predicate that may fail. -/
def firstThat (p : Nat → Option Bool) : List Nat → Option (Option Nat)
  | [] => some none
  | h :: l => (p h).bind (fun b => if b then some (some h) else firstThat p l)

/-- The next halfedge to begin with; `order` are the keys of `m0_sm_ihe_to_flag` in the order of the unordered map — source/kernel.cpp:7475-7546. -/
def findStart (E : Env P) (order : List Nat) (flag : Nat → Option Bool) : Option (Option Nat) :=
  (firstThat (mayStart E flag) order).bind (fun r => if r.isSome then some r else firstThat (mayStartInside E flag) order)

/-- The outer loop; the first argument bounds the number of rounds — source/kernel.cpp:7232-7550. -/
def rounds (E : Env P) (order : List Nat) : Nat → Nat → St P → Option (St P)
  | 0, _, _ => none
  | f + 1, h, s => (drain E (order.length + 1) (order.length + 2) { s with queue := h :: s.queue }).bind (fun s' =>
    (findStart E order s'.flag).bind (fun r => match r with
      | none => some s'
      | some g => rounds E order f g s'))

/-- All walks. The first search has to find something: the end iterator would be dereferenced — source/kernel.cpp:7194-7550. -/
def walks (E : Env P) (order : List Nat) (s : St P) : Option (St P) :=
  (firstThat (mayStart E s.flag) order).bind (fun r => r.bind (fun h => rounds E order (order.length + 1) h s))

/-- `m1_polygons` — source/kernel.cpp:7601-7650. -/
def retrace (E : Env P) (he ihe : Nat → Option Nat) (polys : List (List Nat)) : Option (List (List Nat)) :=
  polys.mapM (fun p => p.mapM (fun h => if isInter E h then ihe h else he h))

/-- What the stage reads, from the results of the earlier stages (`st`: `Model/Boundary.lean`, `o`: `Model/Trace.lean`, `T`: `Model/HalfPoly.lean`). -/
def envOf (ps : Mesh P) (smV smF base numCut : Nat) (reg : List (Nat × Nat)) (m0 : Mesh P) (incoming : Nat → List Nat) (T : Nat → List Nat) (o : Out) : Env P :=
  ⟨ps, link m0 (o.polygons.take o.smCount), smV, smF, base, numCut, reg, T, incoming, o.polygons, o.smCount⟩

/-- The state before the walks: "m1" with copies of the vertices and of the edges without intersection points, no flag set — source/kernel.cpp:6854-7044. -/
def begin (d : P) (base : Nat) (m0 : Mesh P) (order : List Nat) : St P :=
  ⟨(copyEdges m0 base (copyVertices d m0).1).1, fun _ => none, fun h => if h ∈ order then some false else none, []⟩

/-- The whole stage: "m1" and its polygons. `order` are the keys of `m0_sm_ihe_to_flag` in the order of the unordered map — source/kernel.cpp:6839-7657. -/
def split (d : P) (E : Env P) (m0 : Mesh P) (order : List Nat) : Option (Mesh P × List (List Nat)) :=
  (walks E order (begin d E.base m0 order)).bind (fun s =>
    (retrace E (copyEdges m0 E.base (copyVertices d m0).1).2 s.ihe (E.polygons.take E.smCount)).map (fun q => (s.m1, q)))

end Mcut.Split
