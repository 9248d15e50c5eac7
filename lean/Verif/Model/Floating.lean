import Verif.Model.CutPaths

/-!
# Floating polygons (source/kernel.cpp:4017-4137)

A closed cut path whose points all pierce the same face is reported to the front end, which then partitions that face. The normal and its largest component that are stored
with a polygon (4122-4126) are not modelled. As in `Model/CutPaths.lean` a failed assertion, an out-of-range access, a dereferenced end iterator and a loop that does not end
are `none`.
-/
namespace Mcut.Floating
open Mcut.Registry Mcut.CutPaths

/-- The face of the registry entry of a point — source/kernel.cpp:4058, 4061. -/
def tested (reg : List (Nat × Nat)) (base v : Nat) : Option Nat := if v < base then none else (reg[v - base]?).map Prod.snd

/-- The vertex that a round of the loop looks at — source/kernel.cpp:4048-4052. -/
def look (ends : Nat → Nat × Nat) (prev : Option Nat) (e : Nat) : Nat := if prev = some (ends e).1 then (ends e).2 else (ends e).1

/-- The loop that compares the faces; `some (some f)`: they are all `f` — source/kernel.cpp:4044-4070. -/
def scan (ends : Nat → Nat × Nat) (tested : Nat → Option Nat) : List Nat → Option Nat → Option Nat → Option (Option Nat)
  | [], _, shared => some shared
  | e :: l, prev, shared =>
    (tested (look ends prev e)).bind fun f =>
      match shared with
      | none => scan ends tested l (some (look ends prev e)) (some f)
      | some g => if g = f then scan ends tested l (some (look ends prev e)) (some g) else some none

/-- The loop that lists the vertices of the polygon; `n` is the number of edges — source/kernel.cpp:4094-4120. The first argument bounds the number of rounds. -/
def trace (ends : Nat → Nat × Nat) (bin : Nat → List Nat) (n : Nat) : Nat → List Nat → Nat → Option Nat → Option (List Nat)
  | 0, _, _, _ => none
  | k + 1, acc, cur, prev =>
    if prev.isNone || decide ((acc ++ [cur]).length < n) then
      ((bin cur).find? (fun e => decide (some e ≠ prev))).bind fun e =>
        if bin (other ends e cur) = [] then none else trace ends bin n k (acc ++ [cur]) (other ends e cur) (some e)
    else some (acc ++ [cur])

/-- One cut path; `first` is the first key of the hash map `ivtx_to_cp_edges` — source/kernel.cpp:4024-4129. -/
def floating (ends : Nat → Nat × Nat) (tested : Nat → Option Nat) (k : Kind) (first : Nat) (seq : List Nat) : Option (Option (Nat × List Nat)) :=
  if k.hole && !k.linear then
    if seq.length < 3 then none
    else
      (scan ends tested seq none none).bind fun r =>
        match r with
        | none => some none
        | some f => (trace ends (bins ends seq) seq.length (seq.length + 1) [] first none).map (fun vs => some (f, vs))
  else some none

/-- All cut paths, with their kinds and first keys: `detected_floating_polygons` in the order of the entries — source/kernel.cpp:4024-4135. -/
def detect (ends : Nat → Nat × Nat) (tested : Nat → Option Nat) (l : List (List Nat × Kind × Nat)) : Option (List (Nat × List Nat)) :=
  (l.mapM (fun x => floating ends tested x.2.1 x.2.2 x.1)).map (fun r => r.filterMap id)

end Mcut.Floating
