import Verif.Model.CCData
import Verif.Model.PrefixSum

/-! Specification notions used in the statements of `Props/C21.lean`. -/
namespace Mcut.CC
open Mcut.Sched
variable {D F : Type}

/-- Spec: element size of the array that a flag returns. -/
def unit : Flag → Nat
  | .vertexDouble => 8
  | .perturbation => 8
  | _ => 4

/-- Spec: three coordinates as floats. -/
def floats (toF : D → F) (v : D × D × D) : List (Cell D F) := [.f32 (toF v.1), .f32 (toF v.2.1), .f32 (toF v.2.2)]

/-- Spec: three coordinates as doubles. -/
def doubles (v : D × D × D) : List (Cell D F) := [.f64 v.1, .f64 v.2.1, .f64 v.2.2]

/-- Spec: the complete array for a flag; `rev`: reversed winding order is bound; `t`, `m`: the triangulation and its face
map (their contents are the subject of C24). -/
def elems (c : Comp D F) (rev : Bool) (t m : List Nat) : Flag → List (Cell D F)
  | .vertexFloat => c.verts.flatMap (floats c.toF)
  | .vertexDouble => c.verts.flatMap doubles
  | .perturbation => doubles c.pert
  | .face => (c.faces.flatMap (fun f => if rev then f.reverse else f)).map .u32
  | .faceSize => c.faces.map (fun f => .u32 f.length)
  | .adj => c.adj.flatten.map .u32
  | .adjSize => c.adj.map (fun f => .u32 f.length)
  | .edge => c.edges.flatMap (fun e => [.u32 e.1, .u32 e.2])
  | .type => [.u32 c.ty]
  | .fragLocation => [.u32 c.fragLoc]
  | .patchLocation => [.u32 c.patchLoc]
  | .sealType => [.u32 c.sealTy]
  | .origin => [.u32 c.org]
  | .seamVertex => c.seam.map .u32
  | .seamSeq => c.seq.map .u32
  | .vertexMap => c.vmap.map (fun v => .u32 (userVertex c v))
  | .faceMap => c.fmap.map (fun f => .u32 (userFace c f))
  | .tri => (if rev then t.reverse else t).map .u32
  | .triMap => m.map .u32
  | .other => []

/-- Spec: one store per element of an array of elements of `u` bytes, in order. -/
def arrayWrites (u : Nat) (l : List (Cell D F)) : List (Write D F) := l.mapIdx (fun i v => (u * i, v))

/-- Spec: running sums. -/
def sums : Nat → List Nat → List Nat
  | _, [] => []
  | a, x :: xs => (a + x) :: sums (a + x) xs

/-- Spec: a component as the dispatch leaves it: face lists and adjacency lists agree in number, there is at least one
vertex, edge and face, every face that is triangulated yields whole triangles of its own vertices, maps cover all
vertices and faces if they were requested, and everything fits 32 bits. -/
structure Ok (c : Comp D F) : Prop where
  adj : c.adj.length = c.faces.length
  faces : c.faces ≠ []
  verts : c.verts ≠ []
  edges : c.edges ≠ []
  seam : c.ty ≠ INPUT → c.seam ≠ []
  seq : c.ty ≠ INPUT → c.seq ≠ []
  tri : ∀ f < c.faces.length, (c.tri f).length % 3 = 0
  fmap : c.fmap = [] ∨ c.fmap.length = c.faces.length
  bound : c.faces.length + 2 ^ 14 ≤ 2 ^ 32 ∧ c.verts.length + 2 ^ 14 ≤ 2 ^ 32 ∧ c.edges.length + 2 ^ 14 ≤ 2 ^ 32 ∧
    c.seam.length + 2 ^ 14 ≤ 2 ^ 32 ∧ c.vmap.length + 2 ^ 14 ≤ 2 ^ 32
  total : (c.faces.map List.length).sum < 2 ^ 32 ∧ (c.adj.map List.length).sum < 2 ^ 32

/-- Spec: `ps` is what a copying thread finds in the array after `parallel_partial_sum` over `sizes` returned to the
caller, in some interleaving of that call (tpool.h:587-644, C18). A copying thread that is worker `i` of the pool
(`own = some i`) takes the copy from the queue in which its part of the prefix sum was placed before, so that part is
finished; `own = none` is the calling thread. -/
def PsAfter (sizes : List Nat) (avail : Nat) (own : Option Nat) (ps : List Nat) : Prop :=
  ∃ bs s, parallelForBlocks sizes.length avail 1024 = .ok bs ∧
    Reach (PrefixSum.step bs.length) (PrefixSum.init (PrefixSum.chunksOf (sizes.map (BitVec.ofNat 32)) bs)) s ∧
    PrefixSum.returned bs.length s ∧ (∀ i, own = some i → i < bs.length → s.pc i = .done) ∧
    ps = (PrefixSum.memory bs.length s).map BitVec.toNat

/-- Spec: what all threads of a copy with blocks of at least `m` faces may find in the prefix-sum array; the last block is
the caller's own (tpool.h:509-522). -/
def PsViews (sizes : List Nat) (avail m : Nat) (ps : Nat × Nat → List Nat) : Prop :=
  ∀ bs, parallelForBlocks sizes.length avail m = .ok bs → ∀ i b, bs[i]? = some b →
    PsAfter sizes avail (if i + 1 < bs.length then some i else none) (ps b)

/-- Spec: numbers of faces and threads for which the threads that copy the faces (in blocks of at least 2^14) only read
prefix sums that are finished: up to two threads, a single block, or the same blocks as the prefix sum. -/
def SafeFace (faces avail : Nat) : Prop := avail ≤ 2 ∨ faces ≤ 2 ^ 14 ∨ 2 ^ 14 * (avail - 1) < faces

/-- Spec: what the threads do is possible: at least one thread, the threads of the triangulation reserve their space in
some order, and all their stores happen, in some order; the prefix-sum array is as some interleaving leaves it. -/
structure EnvOk (c : Comp D F) (flag : Flag) (env : Env) : Prop where
  avail : 0 < env.avail
  ps : (flag = .face → PsViews (c.faces.map List.length) env.avail (2 ^ 14) env.ps) ∧
    (flag = .adj → PsViews (c.adj.map List.length) env.avail 1024 env.ps)
  order : ∀ bs, parallelForBlocks c.faces.length env.avail 1024 = .ok bs → env.order.Perm bs
  wIdx : env.wIdx.Perm ((reserve c 0 env.order).flatMap (triStores c))
  wMap : (env.wMap.map (fun w => (w.1, some w.2))).Perm ((reserve c 0 env.order).flatMap (triMapStores c))

/-- Spec: the flags that may be queried for a component; the triangulation's face map only after the triangulation was
queried (`C25`). -/
def Valid (c : Comp D F) (k : Cache) : Flag → Prop
  | .fragLocation => c.ty = FRAGMENT
  | .sealType => c.ty = FRAGMENT
  | .patchLocation => c.ty = FRAGMENT ∨ c.ty = PATCH
  | .origin => c.ty = SEAM ∨ c.ty = INPUT
  | .seamVertex => c.ty ≠ INPUT
  | .seamSeq => c.ty ≠ INPUT
  | .vertexMap => c.vmap ≠ []
  | .faceMap => c.fmap ≠ []
  | .triMap => c.fmap ≠ [] ∧ k.tri ≠ none
  | .other => False
  | _ => True

/-- Spec: the caches after any sequence of queries. -/
inductive Caches (c : Comp D F) : Cache → Prop
  | fresh : Caches c Cache.empty
  | step {k : Cache} (h : Caches c k) (flag : Flag) (env : Env) (ok : EnvOk c flag env) (bytes : Nat) (mem num : Bool) :
      Caches c (query c k env flag bytes mem num).1

/-- Spec: total size in bytes of an array of cells. -/
def byteSize (l : List (Cell D F)) : Nat := (l.map Cell.size).sum

/-- Spec: a component with `n` faces, each with one neighbour. -/
def bigComp (n : Nat) : Comp Nat Nat where
  handle := 1
  ty := FRAGMENT
  verts := [(0, 0, 0)]
  toF := id
  faces := List.replicate n [0, 0, 0]
  adj := List.replicate n [0]
  edges := [(0, 0)]
  seam := [0]
  seq := [0]
  vmap := []
  fmap := []
  tri := fun _ => []
  pert := (0, 0, 0)
  fragLoc := 0
  patchLoc := 0
  sealTy := 0
  org := 0
  srcNewVerts := []
  cutNewVerts := []
  srcBirth := []
  cutBirth := []
  internalSrcV := 0
  clientSrcV := 0
  internalSrcF := 0
  clientSrcF := 0

end Mcut.CC
