import Verif.Model.Hmesh

/-!
# The seam vertex sequences (`MC_CONNECTED_COMPONENT_DATA_SEAM_VERTEX_SEQUENCE`, source/frontend.cpp:2837-3038)

Vertex descriptors and array elements are natural numbers (no 32-bit wrap-around). The `std::unordered_map` `traversed_seam_vertices` is
the list of its keys together with the list of the keys whose value is `true`; the order in which it is iterated over is a parameter.
The transfer of the finished array to the client is in `Model/CCData.lean`.
-/
namespace Mcut.Seam
open Hmesh

/-- Why there is no result: undefined behaviour, or the bound on the number of iterations in the model was reached (proved impossible). -/
inductive Stop where
  | ub
  | fuel
deriving DecidableEq, Repr

/-- `MC_UNDEFINED_VALUE` — include/mcut/mcut.h (`UINT32_MAX`). -/
def UNDEF : Nat := 4294967295

variable {P : Type}

/-- The loops over the halfedges around a vertex — frontend.cpp:2902-2921 (`skip = none`) and 2954-2980 (`skip` is the edge of the
halfedge over which the vertex was reached). State: traversed keys, stack (top first), number of pushes. Reading the source of a halfedge
without an opposite is undefined. -/
def scan (m : Mesh P) (keys : List Nat) (skip : Option Nat) : List Nat → List Nat → List (Nat × Nat) → Nat → Except Stop (List Nat × List (Nat × Nat) × Nat)
  | [], tr, st, n => .ok (tr, st, n)
  | h :: hs, tr, st, n =>
    if skip = some (edgeOf h) then scan m keys skip hs tr st n
    else match m.source h with
      | none => .error .ub
      | some s =>
        if s ∈ keys ∧ s ∉ tr then scan m keys skip hs (s :: tr) ((s, h) :: st) (n + 1)
        else scan m keys skip hs tr st n

/-- The reversal of what the current sequence holds — frontend.cpp:2990-2992. -/
def flip (off : Nat) (arr : List Nat) : List Nat := arr.take (off + 2) ++ (arr.drop (off + 2)).reverse

/-- The loop that empties the stack — frontend.cpp:2934-2996. `top` of an empty stack is undefined. The first argument bounds the number of
iterations. -/
def walk (m : Mesh P) (keys : List Nat) (off : Nat) : Nat → List Nat → List Nat → List (Nat × Nat) → Except Stop (List Nat × List Nat)
  | 0, _, _, _ => .error .fuel
  | _ + 1, _, _, [] => .error .ub
  | fuel + 1, arr, tr, (v, h) :: st =>
    match scan m keys (some (edgeOf h)) (m.vh v) tr st 0 with
    | .error e => .error e
    | .ok (tr', st', n) =>
      let arr := arr ++ [v]
      let arr := if n = 0 ∧ st' ≠ [] then flip off arr else arr
      if st' = [] then .ok (arr, tr') else walk m keys off fuel arr tr' st'

/-- The number of halfedges around a vertex that come from a key — frontend.cpp:3008-3024. -/
def countKeys (m : Mesh P) (keys : List Nat) : List Nat → Nat → Except Stop Nat
  | [], n => .ok n
  | h :: hs, n =>
    match m.source h with
    | none => .error .ub
    | some s => countKeys m keys hs (if s ∈ keys then n + 1 else n)

/-- The value of `have_loop` — frontend.cpp:3000-3029. -/
def loopFlag (m : Mesh P) (keys : List Nat) (off : Nat) (one : Bool) (arr : List Nat) : Except Stop Nat :=
  if one then .ok 0
  else match arr[off + 2]? with
    | none => .error .ub
    | some first =>
      match countKeys m keys (m.vh first) 0 with
      | .error e => .error e
      | .ok n => .ok (if n = 2 then 1 else 0)

/-- One iteration of the outer loop — frontend.cpp:2855-3055: the sequence that contains `seed`. Arguments and results: the array, the number of
sequences found, the offset at which the next one starts, the keys. -/
def oneSeq (m : Mesh P) (keys : List Nat) (seed : Nat) (arr : List Nat) (count off : Nat) : Except Stop (List Nat × Nat × Nat × List Nat) :=
  let sizeIdx := arr.length
  let arr := arr ++ [UNDEF, UNDEF, seed]
  match scan m keys none (m.vh seed) [seed] [] 0 with
  | .error e => .error e
  | .ok (tr, st, _) =>
    match walk m keys off (keys.length + 1) arr tr st with
    | .error e => .error e
    | .ok (arr, tr) =>
      match loopFlag m keys off (decide (st.length = 1)) arr with
      | .error e => .error e
      | .ok flag =>
        let len := arr.length - (off + 2)
        let arr := ((arr.set sizeIdx len).set (sizeIdx + 1) flag).set 0 (count + 1)
        .ok (arr, count + 1, off + (len + 2), keys.filter (fun v => v ∉ tr))

/-- The outer loop — frontend.cpp:2855-3057. `order k keys` is the order in which the map is iterated over in iteration `k`; the first entry is the
seed (all entries are untraversed then); there is none if the map is empty (dereferenced end iterator). -/
def seqLoop (m : Mesh P) (order : Nat → List Nat → List Nat) : Nat → List Nat → List Nat → Nat → Nat → Except Stop (List Nat)
  | 0, _, _, _, _ => .error .fuel
  | fuel + 1, keys, arr, count, off =>
    match (order count keys).head? with
    | none => .error .ub
    | some seed =>
      match oneSeq m keys seed arr count off with
      | .error e => .error e
      | .ok (arr, count, off, keys) => if keys = [] then .ok arr else seqLoop m order fuel keys arr count off

/-- The whole computation — frontend.cpp:2837-3057: the keys of the map are the seam vertices, each once. -/
def sequences (m : Mesh P) (order : Nat → List Nat → List Nat) (seam : List Nat) : Except Stop (List Nat) :=
  seqLoop m order (seam.dedup.length + 1) seam.dedup [UNDEF] 0 1

end Mcut.Seam
