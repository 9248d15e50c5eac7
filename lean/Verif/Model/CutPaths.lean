import Verif.Model.CutEdges

/-!
# Cut paths (source/kernel.cpp:3565-3995)

The cut edges are ordered into sequences of connected edges, and each sequence is classified. `ends e` are `m0.vertex(e, 0)` and `m0.vertex(e, 1)`. A `MCUT_ASSERT` that
fails (it is compiled out in release builds), a dereferenced end iterator and a loop that does not end are all `none`.
-/
namespace Mcut.CutPaths
open Mcut.Hmesh Mcut.Registry

/-- `m0_ivtx_to_cutpath_edges` — source/kernel.cpp:3581-3591. -/
def bins (ends : Nat → Nat × Nat) (edges : List Nat) : Nat → List Nat :=
  edges.foldl (fun M e => push (push M (ends e).1 e) (ends e).2 e) (fun _ => [])

/-- `m.find(k) != m.cend()` for the hash maps of the stage, which are lists of pairs. -/
def mapped (m : List (Nat × Nat)) (k : Nat) : Bool := m.any (fun x => x.1 == k)

/-- `m0_cutpath_sequences`, `m0_ivtx_to_cutpath_sequence`, `m0_edge_to_cutpath_sequence` — source/kernel.cpp:3602-3604. -/
structure St where
  seqs : List (List Nat)
  vs : List (Nat × Nat)
  es : List (Nat × Nat)

/-- The end of the edge that is not `v` — source/kernel.cpp:3703-3712. -/
def other (ends : Nat → Nat × Nat) (e v : Nat) : Nat := if v = (ends e).1 then (ends e).2 else (ends e).1

/-- The inner loop: one round adds edge `e`, which is entered at `v`, to sequence number `idx` — source/kernel.cpp:3678-3757. The first argument bounds the number of rounds. -/
def walk (ends : Nat → Nat × Nat) (bin : Nat → List Nat) (idx : Nat) : Nat → List Nat → List (Nat × Nat) → List (Nat × Nat) → Nat → Nat →
    Option (List Nat × List (Nat × Nat) × List (Nat × Nat))
  | 0, _, _, _, _, _ => none
  | n + 1, seq, vs, es, v, e =>
    if mapped vs v || mapped es e then none
    else if mapped ((v, idx) :: vs) (other ends e v) then some (seq ++ [e], (v, idx) :: vs, (e, idx) :: es)
    else
      match bin (other ends e v) with
      | [] => none
      | [_] => some (seq ++ [e], (other ends e v, idx) :: (v, idx) :: vs, (e, idx) :: es)
      | [a, b] =>
        if mapped ((e, idx) :: es) (if e = a then b else a) then some (seq ++ [e], (other ends e v, idx) :: (v, idx) :: vs, (e, idx) :: es)
        else walk ends bin idx n (seq ++ [e]) ((v, idx) :: vs) ((e, idx) :: es) (other ends e v) (if e = a then b else a)
      | _ => none

/-- The vertex at which a sequence is started: one without sequence that has a single edge, else any without sequence. `order` is the order in which the hash map
`m0_ivtx_to_cutpath_edges` is passed through — source/kernel.cpp:3619-3636. -/
def start (bin : Nat → List Nat) (order : List Nat) (vs : List (Nat × Nat)) : Option Nat :=
  (order.find? (fun v => !mapped vs v && (bin v).length == 1)).or (order.find? (fun v => !mapped vs v))

/-- The outer loop: one round builds one sequence — source/kernel.cpp:3606-3761. The first argument bounds the number of rounds. -/
def build (ends : Nat → Nat × Nat) (bin : Nat → List Nat) (order : List Nat) (nE : Nat) : Nat → St → Option St
  | 0, _ => none
  | n + 1, st =>
    if order.length < st.vs.length + 2 then none
    else
      match start bin order st.vs with
      | none => some st
      | some v =>
        ((bin v).find? (fun e => !mapped st.es e)).bind fun e =>
          (walk ends bin st.seqs.length (nE + 1) [] st.vs st.es v e).bind fun r =>
            if r.2.2.length ≠ nE then build ends bin order nE n ⟨st.seqs ++ [r.1], r.2.1, r.2.2⟩ else some ⟨st.seqs ++ [r.1], r.2.1, r.2.2⟩

/-- The sequences — source/kernel.cpp:3577-3763. -/
def paths (ends : Nat → Nat × Nat) (order : List Nat) (edges : List Nat) : Option St :=
  build ends (bins ends edges) order edges.length (edges.length + 1) ⟨[], [], []⟩

/-- `m0_cutpath_terminal_vertices`: the edge of the registry entry of a point, if it is a border edge — source/kernel.cpp:3792-3809. -/
def terminal {P : Type} (ps : Mesh P) (reg : List (Nat × Nat)) (base v : Nat) : Option Nat :=
  if v < base then none else (reg[v - base]?).bind fun x => if ps.isBorder x.1 then some x.1 else none

/-- Whether a border edge belongs to the source mesh; `none`: it has no face at all — source/kernel.cpp:3870-3882, 3936-3950. -/
def fromSource {P : Type} (ps : Mesh P) (smF e : Nat) : Option Bool :=
  ((ps.face (halfedgeOf e 0)).or (ps.face (opposite (halfedgeOf e 0)))).map (fun f => decide (f < smF))

/-- `cutpath_is_linear`, `cutpath_is_hole`, `cutpath_is_srcmesh_severing`. -/
structure Kind where
  linear : Bool
  hole : Bool
  severing : Bool
deriving DecidableEq, Repr

/-- The properties of a sequence — source/kernel.cpp:3821-3963. -/
def classify {P : Type} (ps : Mesh P) (smF base : Nat) (reg : List (Nat × Nat)) (ends : Nat → Nat × Nat) (seq : List Nat) : Option Kind :=
  (seq.head?).bind fun a => (seq.getLast?).bind fun b =>
    let t := terminal ps reg base
    if (t (ends a).1).isNone && (t (ends a).2).isNone then some ⟨false, true, true⟩
    else
      let v := if (t (ends a).1).isSome then (ends a).1 else (ends a).2
      let w := if b = a then (if v = (ends b).1 then (ends b).2 else (ends b).1) else (if (t (ends b).1).isSome then (ends b).1 else (ends b).2)
      (t v).bind fun x => (fromSource ps smF x).bind fun p => (t w).bind fun y => (fromSource ps smF y).bind fun q => some ⟨true, !q && !p, p && q⟩

end Mcut.CutPaths
