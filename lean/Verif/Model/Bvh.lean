import Verif.Model.Box
import Verif.Model.Util

/-!
# Ostensibly-implicit bounding-volume hierarchy (source/bvh.cpp:66-725)

`int` values are natural numbers here: all of them are non-negative in every use (face counts are at least 1), and no `int` overflows for
face counts up to 2^30. Float arithmetic is modelled exactly (round to nearest even, 24-bit significand).
-/
namespace Mcut.Bvh

/-- `next_power_of_two` — source/bvh.cpp:78-88 (`x >= 1`). -/
def nextPowerOfTwo (x : Nat) : Nat :=
  let x := x - 1
  let x := x ||| (x >>> 1)
  let x := x ||| (x >>> 2)
  let x := x ||| (x >>> 4)
  let x := x ||| (x >>> 8)
  let x := x ||| (x >>> 16)
  x + 1

/-- `is_power_of_two` — source/bvh.cpp:91-94 (for non-negative `x`). -/
def isPowerOfTwo (x : Nat) : Bool := decide (x ≠ 0) && decide (x &&& (x - 1) = 0)

/-- `clz` — source/bvh.cpp:68-75: leading zeros of a non-zero 32-bit word. -/
def clz (x : Nat) : Nat := 31 - Nat.log2 x

/-- `ilog2` — source/bvh.cpp:97-100. -/
def ilog2 (x : Nat) : Nat := 32 - clz x - 1

/-- `__builtin_popcount` on the low `k` bits (k = 32 below). -/
def popcountBits : Nat → Nat → Nat
  | 0, _ => 0
  | k + 1, n => n % 2 + popcountBits k (n / 2)

/-- `__builtin_popcount`. -/
def popcount (n : Nat) : Nat := popcountBits 32 n

/-- `get_leaf_level_from_real_leaf_count` — source/bvh.cpp:103-108. -/
def leafLevel (t : Nat) : Nat := ilog2 (nextPowerOfTwo t)

/-- `get_level_from_implicit_idx` — source/bvh.cpp:111-114. -/
def levelOf (i : Nat) : Nat := ilog2 (i + 1)

/-- `flp2` — source/bvh.cpp:117-125. -/
def flp2 (x : Nat) : Nat :=
  let x := x ||| (x >>> 1)
  let x := x ||| (x >>> 2)
  let x := x ||| (x >>> 4)
  let x := x ||| (x >>> 8)
  let x := x ||| (x >>> 16)
  x - (x >>> 1)

/-- `get_ostensibly_implicit_bvh_size` — source/bvh.cpp:128-131. -/
def bvhSize (t : Nat) : Nat := 2 * t - 1 + popcount (nextPowerOfTwo t - t)

/-- `get_level_leftmost_node` — source/bvh.cpp:134-137. -/
def leftmost (level : Nat) : Nat := (1 <<< level) - 1

/-- `get_rightmost_real_leaf` — source/bvh.cpp:140-143. -/
def rightmostRealLeaf (leafLevel t : Nat) : Nat := (leftmost leafLevel + t) - 1

/-- Rounding of a non-negative integer to a float (24-bit significand, nearest, ties to even). -/
def rnd24 (n : Nat) : Nat :=
  if n < 2 ^ 24 then n
  else
    let s := Nat.log2 n - 23
    let q := n >>> s
    let r := n % 2 ^ s
    let h := 2 ^ (s - 1)
    let q := if r > h ∨ (r = h ∧ q % 2 = 1) then q + 1 else q
    q <<< s

/-- `(int)((1.0f / (1 << d)) + ((float)i / (1 << d)) - 1)` — source/bvh.cpp:154, 168 and 181. Division by `2^d` is exact (it changes the
exponent only), so every intermediate value is a rounded integer over `2^d`; truncation towards zero is `Nat` division. -/
def floatAncestor (i d : Nat) : Nat := rnd24 (rnd24 (1 + rnd24 i) - 2 ^ d) / 2 ^ d

/-- `get_level_rightmost_real_node` — source/bvh.cpp:161-170. -/
def levelRightmost (rightmostLeaf leafLevel level : Nat) : Nat := floatAncestor rightmostLeaf (leafLevel - level)

/-- `get_node_ancestor` — source/bvh.cpp:173-181. -/
def nodeAncestor (i level ancestorLevel : Nat) : Nat := floatAncestor i (level - ancestorLevel)

/-- `is_real_implicit_tree_node_id` — source/bvh.cpp:146-158. -/
def isReal (i t : Nat) : Bool :=
  let li := leafLevel t
  let r := rightmostRealLeaf li t
  let p := floatAncestor r (li - levelOf i)
  decide (i ≤ p) || decide (p = 0)

/-- `get_node_mem_index` — source/bvh.cpp:184-191 (with `bvh_data_base_offset = 0`, the only use). -/
def memIndex (node left right : Nat) : Nat := bvhSize ((right - left) + 1) - 1 - (right - node)

/-! ## Construction -/

section build
open Mcut.Box
variable {α : Type*} [LinearOrder α]

/-- The part of `build_oibvh` after sorting — source/bvh.cpp:386-430: store the leaf boxes. `faces` is `bvhLeafNodeFaces` (the faces in
Morton order), `box` is `face_bboxes`, `order` the order in which the worker threads happen to process the leaves. -/
def storeLeaves (faces : List Nat) (box : Nat → BBox α) (order : List Nat) (mem : Nat → BBox α) : Nat → BBox α :=
  let t := faces.length
  let ll := leafLevel t
  let left := leftmost ll
  let right := levelRightmost (rightmostRealLeaf ll t) ll ll
  order.foldl (fun mem k => upd mem (memIndex (left + k) left right) (box (faces.getD k 0))) mem

/-- The box computed for node `k` of an internal level — source/bvh.cpp:446-497. -/
def nodeBox (bot top : α) (faces : List Nat) (box : Nat → BBox α) (mem : Nat → BBox α) (level k : Nat) : BBox α :=
  let t := faces.length
  let ll := leafLevel t
  let rl := rightmostRealLeaf ll t
  let node := leftmost level + k
  let lc := node * 2 + 1
  let rc := node * 2 + 2
  let cright := levelRightmost rl ll (level + 1)
  let cleft := leftmost (level + 1)
  let get (c : Nat) : BBox α :=
    if level + 1 = ll then box (faces.getD (c - cleft) 0) else mem (memIndex c cleft cright)
  let b := (BBox.default bot top).expandBox (get lc)
  if rc ≤ cright then b.expandBox (get rc) else b

/-- `number_of_real_nodes_on_level` — source/bvh.cpp:439-441. -/
def nodesOnLevel (t level : Nat) : Nat :=
  (levelRightmost (rightmostRealLeaf (leafLevel t) t) (leafLevel t) level - leftmost level) + 1

/-- One iteration of the level loop — source/bvh.cpp:437-520. `order` is the order in which the worker threads happen to process the nodes
of the level (some interleaving of the blocks, each thread in index order); every node reads the memory as it is at that moment. -/
def buildLevel (bot top : α) (faces : List Nat) (box : Nat → BBox α) (order : List Nat) (mem : Nat → BBox α) (level : Nat) :
    Nat → BBox α :=
  let t := faces.length
  let ll := leafLevel t
  let right := levelRightmost (rightmostRealLeaf ll t) ll level
  let left := leftmost level
  order.foldl (fun m k => upd m (memIndex (left + k) left right) (nodeBox bot top faces box m level k)) mem

/-- The level loop: levels `n-1, n-2, …, 0`. -/
def buildLevels (bot top : α) (faces : List Nat) (box : Nat → BBox α) (order : Nat → List Nat) :
    Nat → (Nat → BBox α) → (Nat → BBox α)
  | 0, mem => mem
  | n + 1, mem => buildLevels bot top faces box order n (buildLevel bot top faces box (order n) mem n)

/-- `build_oibvh` from the sorted faces on — source/bvh.cpp:386-574. `mem0` is whatever `bvhAABBs` held before; `order l` is the processing
order of level `l`. -/
def build (bot top : α) (faces : List Nat) (box : Nat → BBox α) (order : Nat → List Nat) (mem0 : Nat → BBox α) : Nat → BBox α :=
  buildLevels bot top faces box order (leafLevel faces.length) (storeLeaves faces box (order (leafLevel faces.length)) mem0)

/-! ## Traversal -/

/-- A tree as `intersectOIBVHs` sees it: node boxes by memory index and the leaf faces. -/
structure Tree (α : Type*) where
  mem : Nat → BBox α
  faces : List Nat

/-- Box of a node — source/bvh.cpp:606-622 (and 631-643). -/
def Tree.nodeBBox (T : Tree α) (i : Nat) : BBox α :=
  let ll := leafLevel T.faces.length
  let l := levelOf i
  T.mem (memIndex i (leftmost l) (levelRightmost (rightmostRealLeaf ll T.faces.length) ll l))

/-- Is the node on the leaf level — source/bvh.cpp:608, 632. -/
def Tree.isLeaf (T : Tree α) (i : Nat) : Bool := decide (levelOf i = leafLevel T.faces.length)

/-- Face of a leaf node — source/bvh.cpp:624-627, 645-648. -/
def Tree.leafFace (T : Tree α) (i : Nat) : Nat := T.faces.getD (i - leftmost (levelOf i)) 0

/-- Does the right child exist — source/bvh.cpp:671-672, 690-691, 707-711. -/
def Tree.rightChildReal (T : Tree α) (i : Nat) : Bool :=
  let ll := leafLevel T.faces.length
  decide (i * 2 + 2 ≤ levelRightmost (rightmostRealLeaf ll T.faces.length) ll (levelOf i + 1))

/-- The children of a node that are pushed. -/
def Tree.children (T : Tree α) (i : Nat) : List Nat :=
  if T.rightChildReal i then [i * 2 + 1, i * 2 + 2] else [i * 2 + 1]

/-- Processing the front pair — source/bvh.cpp:600-737: either one reported face pair or new node pairs to push. -/
def visit (S C : Tree α) (p : Nat × Nat) : List (Nat × Nat) × List (Nat × Nat) :=
  if Box.intersect (S.nodeBBox p.1) (C.nodeBBox p.2) then
    if C.isLeaf p.2 && S.isLeaf p.1 then ([(S.leafFace p.1, C.leafFace p.2)], [])
    else if S.isLeaf p.1 && !C.isLeaf p.2 then ([], (C.children p.2).map (fun c => (p.1, c)))
    else if !S.isLeaf p.1 && C.isLeaf p.2 then ([], (S.children p.1).map (fun c => (c, p.2)))
    else ([], (S.children p.1).flatMap (fun a => (C.children p.2).map (fun b => (a, b))))
  else ([], [])

/-- The queue loop — source/bvh.cpp:597-739; `none` if it does not finish within `fuel` iterations. The output is the list of reported
(source face, cut face) pairs in order. -/
def traverse (S C : Tree α) : Nat → List (Nat × Nat) → List (Nat × Nat) → Option (List (Nat × Nat))
  | _, [], out => some out
  | 0, _ :: _, _ => none
  | fuel + 1, p :: q, out =>
    let r := visit S C p
    traverse S C fuel (q ++ r.2) (out ++ r.1)

/-- `ps_face_to_potentially_intersecting_others` after the pushes of source/bvh.cpp:658-662: the list stored under key `f`. `nS` is the
number of source faces (the offset of cut faces). -/
def mapEntry (nS : Nat) (out : List (Nat × Nat)) (f : Nat) : List Nat :=
  out.flatMap (fun p => (if p.1 = f then [p.2 + nS] else []) ++ (if p.2 + nS = f then [p.1] else []))

end build
end Mcut.Bvh
