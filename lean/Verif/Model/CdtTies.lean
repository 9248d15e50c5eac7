import Verif.Model.Geom

/-!
# Corners of a face at the same place

Models `find_duplicates` (include/mcut/internal/cdt/cdt.h) and the part of `triangulate_face` that moves corners which are at the place of another corner (frontend.cpp:1231-1513). A division of a zero vector by its length gives "not a number" in the code; the model returns `none` then.
-/
namespace Mcut.Cdt
open Mcut.Geom

/-- The loop of `find_duplicates`: `i`, `o` are `iIn`, `iOut`, `d` is `uniqueVerts`; what is left of `mapping` and of `duplicates` — cdt.h:152-169. -/
def findLoop {V : Type} [DecidableEq V] : List V → Nat → Nat → List (V × Nat) → List Nat × List Nat
  | [], _, _, _ => ([], [])
  | p :: ps, i, o, d =>
    match d.lookup p with
    | none => let r := findLoop ps (i + 1) (o + 1) ((p, o) :: d); (o :: r.1, r.2)
    | some k => let r := findLoop ps (i + 1) o d; (k :: r.1, i :: r.2)

/-- `find_duplicates`: `mapping` and `duplicates` — include/mcut/internal/cdt/cdt.h:138-172. -/
def findDuplicates {V : Type} [DecidableEq V] (pts : List V) : List Nat × List Nat := findLoop pts 0 0 []

variable {K : Type} [Field K] [LinearOrder K]

/-- `vec2_::operator-` — include/mcut/internal/math.h. -/
def minus2 (a b : V2 K) : V2 K := ⟨a.x - b.x, a.y - b.y⟩
/-- `vec2_::operator+` — include/mcut/internal/math.h. -/
def plus2 (a b : V2 K) : V2 K := ⟨a.x + b.x, a.y + b.y⟩
/-- `vec2_::operator*` (by a number) — include/mcut/internal/math.h. -/
def times2 (a : V2 K) (t : K) : V2 K := ⟨a.x * t, a.y * t⟩
/-- `squared_length` — include/mcut/internal/math.h:479-483. -/
def sqLength2 (a : V2 K) : K := a.x * a.x + a.y * a.y

/-- `largest_sqrd_length` — frontend.cpp:1406-1424. -/
def largestGap (Q : List (V2 K)) : K :=
  (List.range Q.length).foldl (fun l i => (List.range Q.length).foldl (fun l j => if i = j then l else max (sqLength2 (minus2 (at2 Q j) (at2 Q i))) l) l) (-1)

/-- One edge in the search for the closest intersection of the segment from `p` to `q`; `s`: `segment_min_tval` and `intersection_point_on_edge` — frontend.cpp:1450-1495. -/
def closer (sq : K → K) (shiftLen : K) (p q a b : V2 K) (s : K × V2 K) : K × V2 K :=
  let r := segmentIntersection p q a b
  let t := (r.2.2.getD (0, 0)).1
  if r.1 = .proper ∧ s.1 > t then (t, r.2.1.getD q)
  else if r.1 = .edge ∨ r.1 = .vertex then
    let da := sqLength2 (minus2 a p)
    let db := sqLength2 (minus2 b p)
    let c := if da > db then (db, b) else (da, a)
    let t := sq c.1 / shiftLen
    if s.1 > t then (t, c.2) else s
  else s

/-- `intersection_point_on_edge`. `segment_min_tval` begins with 1 and only becomes smaller, so the assertion of frontend.cpp:1498 holds — frontend.cpp:1430-1499. -/
def closest (sq : K → K) (shiftLen : K) (Q : List (V2 K)) (k other : Nat) (p q : V2 K) : V2 K :=
  ((List.range Q.length).foldl (fun s i =>
    let e := (i + 1) % Q.length
    if i = k ∨ e = k ∨ i = other ∨ e = other then s else closer sq shiftLen p q (at2 Q i) (at2 Q e) s) (1, q)).2

/-- Where corner `k`, which is at the same place as another one, is moved; `other` is taken for the number of the other one — frontend.cpp:1270-1511. -/
def displaced (sq : K → K) (Q : List (V2 K)) (k other : Nat) : Option (V2 K) :=
  let prev := if k = 0 then Q.length - 1 else k - 1
  let next := (k + 1) % Q.length
  let p := at2 Q k
  let toPrev := minus2 (at2 Q prev) p
  let toNext := minus2 (at2 Q next) p
  if other = prev ∨ next = other then some (plus2 p (times2 (if other = prev then toNext else toPrev) (1 / 2)))
  else
    let o := orient2d p (at2 Q next) (at2 Q prev)
    let v :=
      if absK o ≤ 1 / 100 then
        let e : V2 K := if sqLength2 toPrev > sqLength2 toNext then toNext else ⟨-toPrev.x, -toPrev.y⟩
        ⟨-e.y, e.x⟩
      else times2 (times2 (plus2 toPrev toNext) (1 / 2)) (if o < 0 then -1 else 1)
    if sqLength2 v = 0 then none
    else
      let dir := times2 v (1 / sq (sqLength2 v))
      let shiftLen := sq (largestGap Q)
      let stop := closest sq shiftLen Q k other p (plus2 p (times2 dir shiftLen))
      some (plus2 p (times2 dir (1 / 100 * sq (sqLength2 (minus2 stop p)))))

/-- The corners after all those that are at the place of another one have been moved, one after the other — frontend.cpp:1242-1513. -/
def breakTies (sq : K → K) (Q : List (V2 K)) : Option (List (V2 K)) :=
  (findDuplicates Q).2.foldlM (fun R k => (displaced sq R k ((findDuplicates Q).1.getD k 0)).map (fun p => R.set k p)) Q

end Mcut.Cdt
