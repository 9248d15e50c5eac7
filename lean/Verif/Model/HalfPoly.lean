import Verif.Model.Trace

/-!
# Which polygons use a halfedge (source/kernel.cpp:6369-6416)

`m0_h_to_ply`: for every halfedge of "m0", the indexes of the traced polygons it occurs in. The vector has `n` entries; `none` as result stands for an access outside of it
(`SAFE_ACCESS` is `at()` there, which throws: include/mcut/internal/utils.h:107-113). The assertion that there are at most two is compiled out.
-/
namespace Mcut.Trace

/-- `push_back` of index `i` in the list of halfedge `h` — source/kernel.cpp:6412-6413. -/
def noteOne (n i : Nat) (T : Nat → List Nat) (h : Nat) : Option (Nat → List Nat) :=
  if h < n then some (fun x => if x = h then T x ++ [i] else T x) else none

/-- The halfedges of polygon `i` — source/kernel.cpp:6393-6415. -/
def noteAll (n i : Nat) (p : List Nat) (T : Nat → List Nat) : Option (Nat → List Nat) := p.foldlM (noteOne n i) T

/-- The polygons one after the other, numbered from `i` on — source/kernel.cpp:6385-6416. -/
def usersFrom (n : Nat) : Nat → List (List Nat) → (Nat → List Nat) → Option (Nat → List Nat)
  | _, [], T => some T
  | i, p :: ps, T => (noteAll n i p T).bind (usersFrom n (i + 1) ps)

/-- The whole table — source/kernel.cpp:6382-6416. -/
def users (n : Nat) (polygons : List (List Nat)) : Option (Nat → List Nat) := usersFrom n 0 polygons (fun _ => [])

end Mcut.Trace
