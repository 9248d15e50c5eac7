import Verif.Model.Patches

/-!
# Colours and places of the patches (source/kernel.cpp:8112-8240, 8518-8660)

The patches are divided into two classes, by the parity of the number of cut paths between them; then it is found out which of the two classes lies outside of the source
mesh. `n` is the number of patches. Indices of the matrices are not checked in the code; all patch numbers come from `m0_cm_poly_to_patch_idx`. `none` as result stands for an
exception or for undefined behaviour (an end iterator is dereferenced: the assertions before it are compiled out).
-/
namespace Mcut.Patches

/-- `graph_patch_to_adj_list` as a list of pairs: the patches of the seeds, taken two by two — source/kernel.cpp:8118-8144. -/
def neighbours (table : List (Nat × Nat)) : List (Nat × Nat) → Option (List (Nat × Nat))
  | a :: b :: pool => (patchOf table a.1).bind (fun p => (patchOf table b.1).bind (fun q => (neighbours table pool).map (fun l => (p, q) :: l)))
  | _ => some []

/-- An entry of `scs_adj_matrix` — source/kernel.cpp:8157-8178. -/
def entry (adj : List (Nat × Nat)) (r c : Nat) : Nat := if r ≠ c ∧ (adj.contains (r, c) = true ∨ adj.contains (c, r) = true) then 1 else 0

/-- An entry of `scs_adj_matrix_sqrd` (without overflow: it is at most `n`) — source/kernel.cpp:8180, include/mcut/internal/math.h:280-293. -/
def square (n : Nat) (adj : List (Nat × Nat)) (r c : Nat) : Nat := ((List.range n).map (fun k => entry adj r k * entry adj k c)).sum

/-- One column of the row of the current patch; the state is the queue, the front of which is the current patch — source/kernel.cpp:8204-8224. -/
def column (n : Nat) (adj : List (Nat × Nat)) (red : List Nat) (row : Nat) (queue : List Nat) (col : Nat) : List Nat :=
  if row ≠ col ∧ 0 < square n adj row col ∧ red.contains col = false ∧ queue.contains col = false then queue ++ [col] else queue

/-- The loop that finds `red_nodes`. The first argument bounds the number of rounds — source/kernel.cpp:8197-8228. -/
def redLoop (n : Nat) (adj : List (Nat × Nat)) : Nat → List Nat → List Nat → Option (List Nat)
  | _, [], red => some red
  | 0, _ :: _, _ => none
  | k + 1, row :: queue, red => redLoop n adj k (((List.range n).foldl (column n adj (red ++ [row]) row) (row :: queue)).tail) (red ++ [row])

/-- The patches with colour 'A' — source/kernel.cpp:8191-8228. -/
def redOf (n : Nat) (adj : List (Nat × Nat)) : Option (List Nat) := redLoop n adj n [0] []

/-- The patches with colour 'B'; `keys` are the keys of `graph_patch_to_adj_list` in the order in which the hash map is passed through — source/kernel.cpp:8230-8242. -/
def blueOf (keys red : List Nat) : List Nat := keys.filter (fun k => !red.contains k)

/-- The colour of patch `k`; `true` is 'A' — source/kernel.cpp:8563-8571, 8600-8607. -/
def colourOf (red blue : List Nat) (k : Nat) : Option Bool := if red.contains k then some true else if blue.contains k then some false else none

/-- `cm_patch_location_t` — include/mcut/internal/kernel.h:91-95 (without UNDEFINED, which is not used here). -/
inductive Place
  | inside
  | outside
  deriving DecidableEq, Repr

/-- `patch_color_label_to_location`. `ext` is `known_exterior_cm_polygons` in the order in which the hash map is passed through — source/kernel.cpp:8543-8660. -/
def meaning (table : List (Nat × Nat)) (red blue : List Nat) (ext : List (Nat × Nat)) : Option (Bool → Place) :=
  match ext with
  | [] => (colourOf red blue 0).map (fun a c => if c = a then .inside else .outside)
  | e :: _ => (patchOf table e.1).bind (fun k => (colourOf red blue k).map (fun a c => if c = a then .outside else .inside))

end Mcut.Patches
