import Verif.Model.Trace
import Verif.Model.Soup
import Verif.Model.CutPaths

/-!
# The seamed source mesh and the seamed cut mesh (source/kernel.cpp:3966-3993, 6226-6353)

From the traced polygons of each of the two meshes a mesh is extracted, in which the cut paths are edges. `none` as result stands for an exception, or for undefined behaviour
(the first entry of an empty map is dereferenced: the assertions before it are compiled out).
-/
namespace Mcut.Trace
open Mcut.Hmesh Mcut.Extract Mcut.CutPaths
variable {P : Type}

/-- The options and mesh properties that matter here — include/mcut/internal/kernel.h:144-171. -/
structure SeamOptions where
  keepSource : Bool
  keepCut : Bool
  sourceTight : Bool
  cutTight : Bool
  popV : Bool
  popF : Bool

/-- `num_explicit_linear_cutpaths` — source/kernel.cpp:3966, 3980-3981. -/
def numLinear (ks : List Kind) : Nat := ks.countP (fun k => k.linear)

/-- `num_explicit_circular_cutpaths` — source/kernel.cpp:3967, 3982-3984. -/
def numCircular (ks : List Kind) : Nat := ks.countP (fun k => !k.linear)

/-- `explicit_cutpaths_severing_srcmesh.size()` — source/kernel.cpp:3969, 3990-3992. -/
def numSevering (ks : List Kind) : Nat := ks.countP (fun k => k.severing)

/-- May the seamed source mesh be built? — source/kernel.cpp:6249-6258. `ks` are the properties of the cut paths. -/
def sourceAllowed (cutTight : Bool) (ks : List Kind) : Bool :=
  cutTight || (decide (numCircular ks = ks.length) || (decide (numCircular ks = 0) && decide (numSevering ks = numLinear ks)))

/-- May the seamed cut mesh be built? — source/kernel.cpp:6310. -/
def cutAllowed (sourceTight : Bool) (ks : List Kind) : Bool := sourceTight || decide (numCircular ks = ks.length)

/-- The arguments of the two calls of `extract_connected_components` — source/kernel.cpp:6263-6289, 6314-6340. -/
def seamArgs (m0 : Mesh P) (base offset : Nat) (T : Extract.Tables) (o : SeamOptions) : Args :=
  ⟨offset, [], [], markSeam m0 base none, T, o.popV, o.popF, ⟨false, false, false⟩⟩

/-- The ids with a component, in the order of the map; `n` bounds the ids. -/
def present (n : Nat) (out : Store P) : List Nat := (List.range n).filter (fun k => !(out k).isEmpty)

/-- `begin()->second.front()` — source/kernel.cpp:6294-6296, 6345-6347. -/
def firstPiece (n : Nat) (out : Store P) : Option (Mesh P × Info) := ((present n out).head?).bind (fun k => (out k).head?)

/-- The seamed source mesh, if it is wanted and allowed — source/kernel.cpp:6252-6302. The components are numbered by `find_connected_components` of the merged mesh. -/
def seamedSource (d : P) (m0 : Mesh P) (base : Nat) (T : Extract.Tables) (ks : List Kind) (o : SeamOptions) (threads : Option Nat) (tr : Out) : Option (Option (Mesh P × Info)) :=
  if o.keepSource && sourceAllowed o.cutTight ks then
    (extract d m0 (tr.polygons.take tr.smCount) (seamArgs m0 base 0 T o) threads (fun _ => [])).bind (fun r =>
      (firstPiece (Preproc.findComponents r.1).num r.2).map some)
  else some none

/-- The seamed cut mesh, if it is wanted, allowed, and has one component — source/kernel.cpp:6305-6353. -/
def seamedCut (d : P) (m0 : Mesh P) (base : Nat) (T : Extract.Tables) (ks : List Kind) (o : SeamOptions) (threads : Option Nat) (tr : Out) : Option (Option (Mesh P × Info)) :=
  if o.keepCut && cutAllowed o.sourceTight ks then
    (extract d m0 (tr.polygons.drop tr.smCount) (seamArgs m0 base tr.smCount T o) threads (fun _ => [])).bind (fun r =>
      if (present (Preproc.findComponents r.1).num r.2).length = 1 then (firstPiece (Preproc.findComponents r.1).num r.2).map some else some none)
  else some none

end Mcut.Trace
