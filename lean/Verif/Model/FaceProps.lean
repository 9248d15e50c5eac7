import Verif.Model.Geom
import Verif.Model.Pairs

/-!
# Planes of the tested faces and the search for faces without area (source/kernel.cpp:2165-2333)

The keys of the face map (`Model/Pairs.lean`) are the tested faces. The properties of a face (vertices, plane) are a parameter `R`; `faceProps` and `zeroArea` are what the
code computes, in exact arithmetic.
-/
namespace Mcut.FaceProps
open Mcut.Hmesh Mcut.Geom Mcut.Sched

section
variable {K : Type} [Field K] [LinearOrder K]

/-- The vertices of a tested face and its plane — source/kernel.cpp:2199-2216, 2304-2319. -/
def faceProps (ps : Mesh (V3 K)) (f : Nat) : List (V3 K) × (V3 K × K × Nat) :=
  let vs := (ps.verticesAroundFace f).map ps.pos
  (vs, planeCoefficients vs)

/-- `squared_length(tested_face_plane_normal) == 0` — source/kernel.cpp:2218, 2321, include/mcut/internal/math.h:447-451. -/
def zeroArea (ps : Mesh (V3 K)) (f : Nat) : Bool := decide (dot (faceProps ps f).2.1 (faceProps ps f).2.1 = 0)

end

variable {R : Type}

/-- The four hash maps from faces to their properties, which always have the same keys — source/kernel.cpp:2170-2173. -/
abbrev Table (R : Type) := Nat → Option R

/-- The mesh named in the message and in the status: `INVALID_SRC_MESH` or `INVALID_CUT_MESH`, with the number of the face in it. -/
inductive Blame | source (f : Nat) | cut (f : Nat)
deriving DecidableEq

/-- source/kernel.cpp:2280-2286, 2322-2326. -/
def blame (smF f : Nat) : Blame := if f > smF then .cut (f - smF) else .source f

/-- One pass over tested faces without the thread pool: the table, or the face at which it returns — source/kernel.cpp:2300-2330. -/
def pass (props : Nat → R) (zero : Nat → Bool) : List Nat → Table R → Except Nat (Table R)
  | [], t => .ok t
  | f :: fs, t => if zero f then .error f else pass props zero fs (upd t f (some (props f)))

/-- Without the thread pool. -/
def sequential (props : Nat → R) (zero : Nat → Bool) (faces : List Nat) : Except Nat (Table R) := pass props zero faces (fun _ => none)

/-- The output of one job — source/kernel.cpp:2188-2223. -/
def blockTable (props : Nat → R) (w : List Nat) : Table R := w.foldl (fun t f => upd t f (some (props f))) (fun _ => none)

/-- `std::unordered_map::insert` of the entries of a future — source/kernel.cpp:2258-2272. -/
def insertAll (t u : Table R) : Table R := fun f => (t f).or (u f)

/-- With the thread pool. `flag`: `potentially_intersecting_face_with_zero_area` (-1: `none`); `pos i`, `mpos`: the number of faces that job `i` and the calling thread have
dealt with; `stopped`: the loop over the futures was left by `break`; `result`: the value of `flag` with which the calling thread leaves the stage —
source/kernel.cpp:2186-2289. -/
structure Par (R : Type) where
  flag : Option Nat
  pos : Nat → Nat
  mpos : Nat
  mdone : Bool
  next : Nat
  stopped : Bool
  acc : Table R
  result : Option (Option Nat)

/-- Before `parallel_for`. -/
def Par.init : Par R := ⟨none, fun _ => 0, 0, false, 0, false, fun _ => none, none⟩

/-- One step of some thread: `M` is the block of the calling thread, `W` are the blocks of the jobs — source/kernel.cpp:2188-2289. -/
inductive Step (props : Nat → R) (zero : Nat → Bool) (M : List Nat) (W : List (List Nat)) : Par R → Par R → Prop
  | workerFace (s) (i : Nat) (w : List Nat) (f : Nat) (hi : W[i]? = some w) (hf : w[s.pos i]? = some f) :
      Step props zero M W s { s with pos := upd s.pos i (s.pos i + 1), flag := if zero f then some f else s.flag }
  | masterFace (s) (f : Nat) (hf : M[s.mpos]? = some f) :
      Step props zero M W s { s with mpos := s.mpos + 1, flag := if zero f then some f else s.flag }
  | masterEnd (s) (h : s.mpos = M.length) (hm : s.mdone = false) : Step props zero M W s { s with mdone := true, acc := blockTable props M }
  | await (s) (w : List Nat) (hm : s.mdone = true) (hs : s.stopped = false) (hn : W[s.next]? = some w) (hw : s.pos s.next = w.length) (hr : s.result = none) :
      Step props zero M W s (if s.flag.isSome then { s with stopped := true } else { s with next := s.next + 1, acc := insertAll s.acc (blockTable props w) })
  | leave (s) (hm : s.mdone = true) (hs : s.stopped = true ∨ s.next = W.length) (hr : s.result = none) : Step props zero M W s { s with result := some s.flag }

/-- All executions. -/
inductive Reach (props : Nat → R) (zero : Nat → Bool) (M : List Nat) (W : List (List Nat)) : Par R → Prop
  | init : Reach props zero M W .init
  | step {s t} (h : Reach props zero M W s) (h' : Step props zero M W s t) : Reach props zero M W t

end Mcut.FaceProps
