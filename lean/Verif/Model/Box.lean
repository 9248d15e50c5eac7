import Mathlib.Order.Lattice
import Mathlib.Order.MinMax

/-!
# Axis-aligned bounding boxes (include/mcut/internal/math.h:397-435, 605-680)

Coordinates are elements of an arbitrary linear order (doubles without NaN; the sentinels `±DBL_MAX` of the default
constructor are parameters).
-/
namespace Mcut.Box

variable {α : Type*} [LinearOrder α]

/-- `vec3_` — include/mcut/internal/math.h (three components). -/
structure V3 (α : Type*) where
  x : α
  y : α
  z : α
  deriving DecidableEq

/-- `min` — include/mcut/internal/math.h:398-402. -/
def mcMin (a b : α) : α := if b < a then b else a

/-- `max` — include/mcut/internal/math.h:403-407. -/
def mcMax (a b : α) : α := if a < b then b else a

/-- `compwise_min` for vec3 — include/mcut/internal/math.h:423-427. -/
def compwiseMin (a b : V3 α) : V3 α := ⟨mcMin a.x b.x, mcMin a.y b.y, mcMin a.z b.z⟩

/-- `compwise_max` for vec3 — include/mcut/internal/math.h:429-433. -/
def compwiseMax (a b : V3 α) : V3 α := ⟨mcMax a.x b.x, mcMax a.y b.y, mcMax a.z b.z⟩

/-- `bounding_box_t<vec3>` — include/mcut/internal/math.h:605-615. -/
structure BBox (α : Type*) where
  lo : V3 α
  hi : V3 α
  deriving DecidableEq

/-- `bounding_box_t()` — include/mcut/internal/math.h:617-621; `top` = DBL_MAX, `bot` = -DBL_MAX. -/
def BBox.default (bot top : α) : BBox α := ⟨⟨top, top, top⟩, ⟨bot, bot, bot⟩⟩

/-- `bounding_box_t::expand(point)` — include/mcut/internal/math.h:633-637. -/
def BBox.expandPoint (b : BBox α) (p : V3 α) : BBox α := ⟨compwiseMin b.lo p, compwiseMax b.hi p⟩

/-- `bounding_box_t::expand(bbox)` — include/mcut/internal/math.h:639-643. -/
def BBox.expandBox (b c : BBox α) : BBox α := ⟨compwiseMin b.lo c.lo, compwiseMax b.hi c.hi⟩

/-- `intersect_bounding_boxes` — include/mcut/internal/math.h:667-679. -/
def intersect (a b : BBox α) : Bool :=
  (decide (a.lo.x ≤ b.hi.x) && decide (a.hi.x ≥ b.lo.x)) &&
  (decide (a.lo.y ≤ b.hi.y) && decide (a.hi.y ≥ b.lo.y)) &&
  (decide (a.lo.z ≤ b.hi.z) && decide (a.hi.z ≥ b.lo.z))

/-- The vertex loop of a face or of a block of vertices: `expand` every point in turn — source/bvh.cpp:248-251 and 302-306. -/
def boxOfPoints (bot top : α) (ps : List (V3 α)) : BBox α :=
  ps.foldl (fun b p => b.expandPoint p) (BBox.default bot top)

/-- The mesh box: every worker's block-local box is merged into the shared box under a mutex, in the order in which the workers get
the mutex — source/bvh.cpp:296-316. `shared` is the prior content of the shared box, `blocks` the blocks in merge order. -/
def mergeBlocks (bot top : α) (shared : BBox α) (blocks : List (List (V3 α))) : BBox α :=
  blocks.foldl (fun b blk => b.expandBox (boxOfPoints bot top blk)) shared

end Mcut.Box
