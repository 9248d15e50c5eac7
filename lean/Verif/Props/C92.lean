import Verif.Lemmas.C92Traced

/-! # C92: the border of the cut mesh inside of the source mesh -/
namespace Mcut.Inner
open Mcut.Hmesh
open Mcut.Trace (src)
variable {P : Type} {m : Mesh P} {base smCount : Nat} {polys : List (List Nat)} {users : Nat → List Nat} {rounds : Nat}

theorem findStart_sound (S : Surface m base polys users) {queue : List Nat} {e i : Nat} (h : findStart m base smCount polys users queue = some (e, i)) :
    ∃ p g, smCount ≤ e ∧ polys[e]? = some p ∧ p[i]? = some g ∧ OnBorder polys g ∧ m.target g < base ∧ src m g ∈ queue := by
  unfold findStart at h
  obtain ⟨a, ha, h⟩ := List.exists_of_findSome?_eq_some h
  rw [Option.map_eq_some_iff] at h
  obtain ⟨j, hj, h⟩ := h
  obtain ⟨rfl, rfl⟩ := Prod.mk.inj h
  obtain ⟨k, hk⟩ := List.mem_iff_getElem?.1 ha
  rw [List.getElem?_drop] at hk
  obtain ⟨hk1, hk2⟩ := List.getElem?_eq_some_iff.1 hk
  rw [List.getElem_range] at hk2
  rw [List.length_range] at hk1
  subst hk2
  rw [List.getD_eq_getElem?_getD, List.getElem?_eq_getElem hk1, Option.getD_some] at hj
  rw [List.findIdx?_eq_some_iff_getElem] at hj
  obtain ⟨hl, hb, -⟩ := hj
  unfold begins at hb
  simp only [Bool.and_eq_true, Bool.not_eq_true', decide_eq_false_iff_not, List.isEmpty_iff, List.contains_iff_mem] at hb
  exact ⟨_, _, by omega, List.getElem?_eq_getElem hk1, List.getElem?_eq_getElem hl, ⟨⟨_, List.getElem_mem hk1, List.getElem_mem hl⟩, S.no_users.1 hb.1.2⟩, by omega, hb.2⟩

theorem findStart_none (S : Surface m base polys users) {queue : List Nat} (h : findStart m base smCount polys users queue = none) :
    ∀ r ∈ queue, ∀ g, ¬ Leads m base smCount polys r g := by
  rintro r hr g ⟨hb, hs, ht, e, p, he, hp, hg⟩
  unfold findStart at h
  rw [List.findSome?_eq_none_iff] at h
  have hl := (List.getElem?_eq_some_iff.1 hp).1
  have := h e (List.mem_iff_getElem?.2 ⟨e - smCount, by rw [List.getElem?_drop, List.getElem?_range (by omega)]; congr 1; omega⟩)
  rw [Option.map_eq_none_iff, List.findIdx?_eq_none_iff] at this
  have h1 := this g (by rw [List.getD_eq_getElem?_getD, hp]; exact hg)
  unfold begins at h1
  have h2 := S.no_users.2 hb.2
  subst hs
  rw [h2] at h1
  simp at h1
  exact h1 ht hr

/-- The polygon that is found is the first one with such a halfedge. -/
theorem findStart_first (S : Surface m base polys users) {queue : List Nat} {e i : Nat} (h : findStart m base smCount polys users queue = some (e, i)) {r : Nat} (hr : r ∈ queue) {g e' : Nat} {p : List Nat}
    (hL : Leads m base smCount polys r g) (hp : polys[e']? = some p) (hg : g ∈ p) (he : smCount ≤ e') : e ≤ e' := by
  by_contra hlt
  unfold findStart at h
  rw [List.findSome?_eq_some_iff] at h
  obtain ⟨l1, a, l2, hl, hf, hn⟩ := h
  rw [Option.map_eq_some_iff] at hf
  obtain ⟨j, -, hf⟩ := hf
  obtain ⟨rfl, rfl⟩ := Prod.mk.inj hf
  have hl' := (List.getElem?_eq_some_iff.1 hp).1
  have pos : (l1 ++ a :: l2)[e' - smCount]? = some e' := by
    rw [← hl, List.getElem?_drop, List.getElem?_range (by omega)]
    congr 1; omega
  have posa : (l1 ++ a :: l2)[l1.length]? = some a := by simp
  have ha : smCount + l1.length = a := by
    rw [← hl, List.getElem?_drop] at posa
    obtain ⟨h1, h2⟩ := List.getElem?_eq_some_iff.1 posa
    rw [List.getElem_range] at h2
    exact h2
  rw [List.getElem?_append_left (by omega)] at pos
  have := hn e' (List.mem_of_getElem? pos)
  rw [Option.map_eq_none_iff, List.findIdx?_eq_none_iff] at this
  have h1 := this g (by rw [List.getD_eq_getElem?_getD, hp]; exact hg)
  obtain ⟨hb, hs, ht, -⟩ := hL
  unfold begins at h1
  have h2 := S.no_users.2 hb.2
  subst hs
  rw [h2] at h1
  simp at h1
  exact h1 ht hr

/-- The list of the vertices of the border: it is made up of pieces of the border, each from a re-entrant point to the next intersection point; one such piece is there whenever a re-entrant point leads to one, and for the last one of the queue it is the one of this point. -/
theorem C92_border (S : Surface m base polys users) (hr : polys.flatten.length + 1 ≤ rounds) :
    ∀ queue : List Nat, (∀ r ∈ queue, base ≤ r) → ∃ segs : List (List Nat), innerBorder m base smCount polys users rounds queue = some (segs.map (fun l => l.map m.target)).flatten ∧ (∀ l ∈ segs, Piece m base smCount polys queue l) ∧ (∀ r ∈ queue, ∀ h, Leads m base smCount polys r h → segs ≠ []) ∧
      (∀ r h, queue.getLast? = some r → Leads m base smCount polys r h → ∃ l ∈ segs, ∃ h', l.head? = some h' ∧ src m h' = r) := by
  intro queue
  induction queue with
  | nil => exact fun _ => ⟨[], rfl, by simp, by simp, by simp⟩
  | cons r queue ih =>
    intro hq
    obtain ⟨segs, es, hp, -, hl⟩ := ih fun x hx => hq x (List.mem_cons_of_mem _ hx)
    have hp' : ∀ l ∈ segs, Piece m base smCount polys (r :: queue) l := fun l hl => by
      obtain ⟨a, b, ⟨h, h1, h2, h3⟩, d, e⟩ := hp l hl
      exact ⟨a, b, ⟨h, h1, List.mem_cons_of_mem _ h2, h3⟩, d, e⟩
    unfold innerBorder
    cases hf : findStart m base smCount polys users (r :: queue) with
    | none =>
      refine ⟨segs, es, hp', fun r' h' h hL => absurd hL (findStart_none S hf r' h' h), ?_⟩
      intro r' h hlast hL
      exact absurd hL (findStart_none S hf r' (List.mem_of_getLast? hlast) h)
    | some x =>
      obtain ⟨e, i⟩ := x
      obtain ⟨p, g, hse, he, hi, hb, ht, hs⟩ := findStart_sound S hf
      obtain ⟨l, ew, l1, l2, l3, l4, l5⟩ := S.walk_ends hr (hq _ hs) rounds [] e i p g he hi hb List.nodup_nil (by simp) (by simp) (by simp) (by simpa using hr)
      refine ⟨l :: segs, ?_, ?_, fun _ _ _ _ => List.cons_ne_nil _ _, ?_⟩
      · simp only
        rw [ew, es]
        simp
      · intro l' hl'
        rcases List.mem_cons.1 hl' with rfl | hl'
        · exact ⟨l2, l3, ⟨g, l1, hs, hb, rfl, ht, e, p, hse, he, List.mem_of_getElem? hi⟩, l4, l5⟩
        · exact hp' l' hl'
      · intro r' h hlast hL
        cases queue with
        | nil =>
          obtain rfl := Option.some.inj hlast
          exact ⟨l, List.mem_cons_self, g, l1, by simpa using hs⟩
        | cons y ys =>
          rw [List.getLast?_cons_cons] at hlast
          obtain ⟨l', h1, h2⟩ := hl r' h hlast hL
          exact ⟨l', List.mem_cons_of_mem _ h1, h2⟩

/-- If the polygons come in the order of the queue, the piece of every entry point is found. -/
theorem C92_ordered_partial (S : Surface m base polys users) (hr : polys.flatten.length + 1 ≤ rounds) :
    ∀ queue : List Nat, (∀ r ∈ queue, base ≤ r) → InOrder m base smCount polys queue → ∃ segs : List (List Nat), innerBorder m base smCount polys users rounds queue = some (segs.map (fun l => l.map m.target)).flatten ∧
      (∀ l ∈ segs, Piece m base smCount polys queue l) ∧ ∀ r ∈ queue, ∀ h, Leads m base smCount polys r h → ∃ l ∈ segs, ∃ h', l.head? = some h' ∧ src m h' = r := by
  intro queue
  induction queue with
  | nil => exact fun _ _ => ⟨[], rfl, by simp, by simp⟩
  | cons r queue ih =>
    intro hq ho
    obtain ⟨ho1, ho2⟩ := List.pairwise_cons.1 ho
    obtain ⟨segs, es, hp, hl⟩ := ih (fun x hx => hq x (List.mem_cons_of_mem _ hx)) ho2
    have hp' : ∀ l ∈ segs, Piece m base smCount polys (r :: queue) l := fun l hl => by
      obtain ⟨a, b, ⟨h, h1, h2, h3⟩, d, e⟩ := hp l hl
      exact ⟨a, b, ⟨h, h1, List.mem_cons_of_mem _ h2, h3⟩, d, e⟩
    unfold innerBorder
    cases hf : findStart m base smCount polys users (r :: queue) with
    | none => exact ⟨segs, es, hp', fun r' h' h hL => absurd hL (findStart_none S hf r' h' h)⟩
    | some x =>
      obtain ⟨e, i⟩ := x
      obtain ⟨p, g, hse, he, hi, hb, ht, hs⟩ := findStart_sound S hf
      have Lg : Leads m base smCount polys (src m g) g := ⟨hb, rfl, ht, e, p, hse, he, List.mem_of_getElem? hi⟩
      obtain ⟨l, ew, l1, l2, l3, l4, l5⟩ := S.walk_ends hr (hq _ hs) rounds [] e i p g he hi hb List.nodup_nil (by simp) (by simp) (by simp) (by simpa using hr)
      refine ⟨l :: segs, ?_, ?_, ?_⟩
      · simp only
        rw [ew, es]
        simp
      · intro l' hl'
        rcases List.mem_cons.1 hl' with rfl | hl'
        · exact ⟨l2, l3, ⟨g, l1, hs, Lg⟩, l4, l5⟩
        · exact hp' l' hl'
      · intro r' hr' h hL
        rcases List.mem_cons.1 hr' with rfl | hr'
        · refine ⟨l, List.mem_cons_self, g, l1, ?_⟩
          rcases List.mem_cons.1 hs with e1 | hs
          · exact e1
          · exfalso
            obtain ⟨-, -, -, e0, p0, h0, hp0, hm0⟩ := id hL
            have h1 := findStart_first S hf List.mem_cons_self hL hp0 hm0 h0
            have h2 := ho1 _ hs h g e0 e p0 p hL Lg hp0 he hm0 (List.mem_of_getElem? hi)
            omega
        · obtain ⟨l', h1, h2⟩ := hl r' hr' h hL
          exact ⟨l', List.mem_cons_of_mem _ h1, h2⟩

/-- If only one entry point has a border that leads into the source mesh, all pieces found are of this border, and it is found. -/
theorem C92_single (S : Surface m base polys users) (hr : polys.flatten.length + 1 ≤ rounds) (queue : List Nat) (hq : ∀ x ∈ queue, base ≤ x) (r : Nat) (hm : r ∈ queue) (h : Nat) (hL : Leads m base smCount polys r h)
    (only : ∀ x ∈ queue, ∀ g, Leads m base smCount polys x g → x = r) : ∃ segs : List (List Nat), segs ≠ [] ∧ innerBorder m base smCount polys users rounds queue = some (segs.map (fun l => l.map m.target)).flatten ∧
      ∀ l ∈ segs, Piece m base smCount polys queue l ∧ ∃ g, l.head? = some g ∧ src m g = r := by
  obtain ⟨segs, e, hp, hne, -⟩ := C92_border (smCount := smCount) S hr queue hq
  refine ⟨segs, hne r hm h hL, e, fun l hl => ⟨hp l hl, ?_⟩⟩
  obtain ⟨g, h1, h2, h3⟩ := (hp l hl).start
  exact ⟨g, h1, only _ h2 g h3⟩

/-- A mesh of points with given ends of the edges. -/
def ofEnds (ends : List (Nat × Nat)) : Mesh Unit :=
  { Mesh.empty () with hd := fun h => { o := some (opposite h), t := if h % 2 = 0 then (ends.getD (h / 2) (0, 0)).2 else (ends.getD (h / 2) (0, 0)).1 } }

/-- The polygons of halfedge `h`. -/
def usersOf (polys : List (List Nat)) (h : Nat) : List Nat := (List.range polys.length).filter (fun e => decide (h ∈ polys.getD e []))

theorem mem_usersOf (polys : List (List Nat)) (h e : Nat) : e ∈ usersOf polys h ↔ ∃ p, polys[e]? = some p ∧ h ∈ p := by
  unfold usersOf
  rw [List.mem_filter, List.mem_range, decide_eq_true_iff, List.getD_eq_getElem?_getD]
  constructor
  · rintro ⟨hl, hm⟩
    rw [List.getElem?_eq_getElem hl] at hm
    exact ⟨_, List.getElem?_eq_getElem hl, hm⟩
  · rintro ⟨p, hp, hm⟩
    refine ⟨(List.getElem?_eq_some_iff.1 hp).1, ?_⟩
    rw [hp]
    exact hm

theorem surface_of (m : Mesh P) (base : Nat) (polys : List (List Nat)) (nd : ∀ p ∈ polys, p.Nodup) (ends : ∀ p ∈ polys, ∀ h ∈ p, src m h = m.target (opposite h) ∧ src m (opposite h) = m.target h)
    (closed : ∀ p ∈ polys, ∀ x ∈ cycPairs p, m.target x.1 = src m x.2)
    (once : ∀ p ∈ polys, ∀ h ∈ p, (src m h < base ∨ m.target h < base) → (usersOf polys h).length ≤ 1) : Surface m base polys (usersOf polys) := by
  refine ⟨mem_usersOf polys, nd, ends, closed, ?_⟩
  intro e e' p p' h hp hp' hm hm' hv
  have h1 := (mem_usersOf polys h e).2 ⟨p, hp, hm⟩
  have h2 := (mem_usersOf polys h e').2 ⟨p', hp', hm'⟩
  have h3 := once p (List.mem_of_getElem? hp) h hm hv
  match hu : usersOf polys h with
  | [] => rw [hu] at h1; simp at h1
  | [x] =>
    rw [hu, List.mem_singleton] at h1 h2
    rw [h1, h2]
  | x :: y :: l => rw [hu] at h3; simp at h3

/-- Two triangles of the cut mesh, 2-0-1 and 2-1-3, and three edges of a source polygon; the points from 2 on are intersection points. -/
def fanMesh : Mesh Unit := ofEnds [(2, 0), (0, 1), (1, 2), (1, 3), (3, 2), (2, 4), (4, 5), (5, 2)]
def fanPolys : List (List Nat) := [[10, 12, 14], [0, 2, 4], [5, 6, 8]]

/-- The hypotheses are met, and the walk goes around point 1 from one polygon to the next. -/
theorem C92_demo : Surface fanMesh 2 fanPolys (usersOf fanPolys) ∧ Leads fanMesh 2 1 fanPolys 2 0 ∧ innerBorder fanMesh 2 1 fanPolys (usersOf fanPolys) 10 [3, 2] = some [0, 1, 3, 0, 1, 3] := by
  refine ⟨surface_of _ _ _ (by decide +kernel) (by decide +kernel) (by decide +kernel) (by decide +kernel), ⟨⟨⟨[0, 2, 4], by decide +kernel, by decide +kernel⟩, by decide +kernel⟩, by decide +kernel, by decide +kernel, 1, [0, 2, 4], by decide +kernel, by decide +kernel, by decide +kernel⟩, by decide +kernel⟩

/-- Two triangles of the cut mesh that have nothing to do with each other, 2-0-3 and 4-1-5. -/
def slitMesh : Mesh Unit := ofEnds [(2, 0), (0, 3), (3, 2), (4, 1), (1, 5), (5, 4)]
def slitPolys : List (List Nat) := [[0, 2, 4], [6, 8, 10]]

/-- The full claim — the border that a re-entrant point leads to is found — is false. The search (kernel.cpp:8298-8343) takes a halfedge that begins at any point of the queue, but what is then taken from the queue (kernel.cpp:8345) is its front. If the polygons do not come in the order of the
queue, the piece found is that of another point; it is found again when that point comes to the front, and the piece of the front is lost: here vertex 1 is never found, though point 4 is in the queue and leads to it. With the queue the other way round it is found. -/
theorem C92_skips_fails : Surface slitMesh 2 slitPolys (usersOf slitPolys) ∧ Leads slitMesh 2 0 slitPolys 4 6 ∧ slitMesh.target 6 = 1 ∧
    innerBorder slitMesh 2 0 slitPolys (usersOf slitPolys) 7 [4, 2] = some [0, 3, 0, 3] ∧ innerBorder slitMesh 2 0 slitPolys (usersOf slitPolys) 7 [2, 4] = some [0, 3, 1, 5] := by
  refine ⟨surface_of _ _ _ (by decide +kernel) (by decide +kernel) (by decide +kernel) (by decide +kernel), ⟨⟨⟨[6, 8, 10], by decide +kernel, by decide +kernel⟩, by decide +kernel⟩, by decide +kernel, by decide +kernel, 1, [6, 8, 10], by decide +kernel, by decide +kernel, by decide +kernel⟩, by decide +kernel, by decide +kernel, by decide +kernel⟩

/-- The hypothesis of `C92_ordered_partial` is met by the two triangles, with the queue the right way round. -/
theorem C92_ordered_demo : InOrder slitMesh 2 0 slitPolys [2, 4] := by
  have key : ∀ e ∈ List.range 2, ∀ h ∈ slitPolys.getD e [], slitMesh.target h < 2 → (src slitMesh h = 2 → e = 0) ∧ (src slitMesh h = 4 → e = 1) := by decide +kernel
  have get : ∀ (e h : Nat) (p : List Nat), slitPolys[e]? = some p → h ∈ p → e ∈ List.range 2 ∧ h ∈ slitPolys.getD e [] := by
    intro e h p hp hm
    refine ⟨List.mem_range.2 (List.getElem?_eq_some_iff.1 hp).1, ?_⟩
    rw [List.getD_eq_getElem?_getD, hp]
    exact hm
  refine List.pairwise_cons.2 ⟨?_, by simp⟩
  intro r' hr'
  obtain rfl : r' = 4 := by simpa using hr'
  intro h h' e e' p p' hL hL' hp hp' hm hm'
  obtain ⟨a, b⟩ := get e h p hp hm
  obtain ⟨a', b'⟩ := get e' h' p' hp' hm'
  have h1 := (key e a h b hL.2.2.1).1 hL.2.1
  have h2 := (key e' a' h' b' hL'.2.2.1).2 hL'.2.1
  omega

section traced
open Mcut.Registry Mcut.CutEdges Mcut.Boundary Mcut.Trace Mcut.Extract
variable {d : P} {ps : Mesh P} {base : Nat} {pts : Nat → List Nat} {sort : Nat → Nat → List Nat → List Nat} {edges : List Nat} {c : CutEdges.St P} {st : Boundary.St P}
  {pieces : Nat → List Nat} {reg : List (Nat × Nat)} {part : (Nat → Bool) → List Nat → List Nat × List Nat}

/-- With the polygons that are traced (C71, C73), with partial cuts or not, whatever the list of entry points: the border is walked as in `C92_border`. -/
theorem C92_traced_partial (G : Given d ps base pts sort edges c st pieces reg) (one : SimpleEdges ps) (hp : IsPartition part) {smF n : Nat} (le : smF ≤ n) (live : ∀ f, f < n ↔ LiveF ps f)
    (few : ∀ f, f < n → c.faceEdges f ≠ [] → ∀ h ∈ ps.fh f, (pts (edgeOf h)).length ≤ 1) (two : ∀ e f g, e ∈ c.faceEdges f → e ∈ c.faceEdges g → (f < smF ↔ g < smF) → f = g) :
    ∃ o T, sequential ps st smF base reg part (List.range n) = some o ∧ Trace.users st.m0.numHalfedges o.polygons = some T ∧ ∀ rounds, o.polygons.flatten.length + 1 ≤ rounds → ∀ queue : List Nat, (∀ r ∈ queue, base ≤ r) →
      ∃ segs : List (List Nat), innerBorder st.m0 base o.smCount o.polygons T rounds queue = some (segs.map (fun l => l.map st.m0.target)).flatten ∧ (∀ l ∈ segs, Piece st.m0 base o.smCount o.polygons queue l) ∧
        (∀ r ∈ queue, ∀ h, Leads st.m0 base o.smCount o.polygons r h → segs ≠ []) ∧
        (∀ r h, queue.getLast? = some r → Leads st.m0 base o.smCount o.polygons r h → ∃ l ∈ segs, ∃ h', l.head? = some h' ∧ src st.m0 h' = r) := by
  obtain ⟨o, T, e, hT, S, -⟩ := traced_surface G one hp le live few two
  exact ⟨o, T, e, hT, fun rounds hr queue hq => C92_border S hr queue hq⟩

/-- With the entry points that have been recorded (C63), the intersection points on border edges of the cut mesh. -/
theorem C92_recorded_partial {smF : Nat} {R : List (Nat × Nat × P)} {t : Registry.Tables P} (hR : Recorded ps smF base R t) (G : Given d ps base t.edges sort edges c st pieces t.reg) (one : SimpleEdges ps) (hp : IsPartition part)
    {n : Nat} (le : smF ≤ n) (live : ∀ f, f < n ↔ LiveF ps f) (few : ∀ f, f < n → c.faceEdges f ≠ [] → ∀ h ∈ ps.fh f, (t.edges (edgeOf h)).length ≤ 1)
    (two : ∀ e f g, e ∈ c.faceEdges f → e ∈ c.faceEdges g → (f < smF ↔ g < smF) → f = g) :
    ∃ o T, sequential ps st smF base t.reg part (List.range n) = some o ∧ Trace.users st.m0.numHalfedges o.polygons = some T ∧ ∀ rounds, o.polygons.flatten.length + 1 ≤ rounds →
      ∃ segs : List (List Nat), innerBorder st.m0 base o.smCount o.polygons T rounds t.border = some (segs.map (fun l => l.map st.m0.target)).flatten ∧ (∀ l ∈ segs, Piece st.m0 base o.smCount o.polygons t.border l) ∧
        (∀ r ∈ t.border, ∀ h, Leads st.m0 base o.smCount o.polygons r h → segs ≠ []) ∧
        (InOrder st.m0 base o.smCount o.polygons t.border → ∀ r ∈ t.border, ∀ h, Leads st.m0 base o.smCount o.polygons r h → ∃ l, Piece st.m0 base o.smCount o.polygons t.border l ∧ (∃ h', l.head? = some h' ∧ src st.m0 h' = r) ∧
          ∀ x ∈ l, ∀ vs, innerBorder st.m0 base o.smCount o.polygons T rounds t.border = some vs → st.m0.target x ∈ vs) := by
  obtain ⟨o, T, e, hT, S, -⟩ := traced_surface G one hp le live few two
  have hq : ∀ r ∈ t.border, base ≤ r := by
    intro r hr
    obtain ⟨i, -, -, h, -⟩ := (hR.border.2 r).1 hr
    omega
  refine ⟨o, T, e, hT, fun rounds hr => ?_⟩
  obtain ⟨segs, h1, h2, h3, -⟩ := C92_border (smCount := o.smCount) S hr t.border hq
  refine ⟨segs, h1, h2, h3, fun ho r hm h hL => ?_⟩
  obtain ⟨segs', g1, g2, g3⟩ := C92_ordered_partial S hr t.border hq ho
  obtain ⟨l, hl, hh⟩ := g3 r hm h hL
  refine ⟨l, g2 l hl, hh, fun x hx vs hvs => ?_⟩
  rw [g1] at hvs
  obtain rfl := Option.some.inj hvs
  exact List.mem_flatten.2 ⟨l.map st.m0.target, List.mem_map.2 ⟨l, hl, rfl⟩, List.mem_map.2 ⟨x, hx, rfl⟩⟩

open Mcut.Floating Mcut.Pairs

/-- A corner of the border of the pyramid, 5, pierces the triangle. -/
def demoTest6 (e f : Nat) : Outcome Unit := if f = 0 ∧ (e = 3 ∨ e = 4 ∨ e = 6) then .point () else .miss
def demoTables6 : Tables Unit := (Registry.sequential demoPs2 3 1 7 demoTest6 [(3, [0]), (4, [0]), (6, [0])]).getD .empty
def demoCut6 : CutEdges.St Unit := (demoCut demoTables6 [(0, 1), (0, 2)]).getD ⟨Mesh.empty (), [], fun _ => [], fun _ => []⟩

/-- The hypotheses are met by a triangle that a corner of a pyramid without its base pierces; the walk from point 7 goes through corner 5 to point 9, around the corner through two polygons; that from point 9 goes through the two other corners, 6 and 4. -/
theorem C92_traced_demo : ∃ pieces, Given () demoPs2 7 demoTables6.edges demoSort (List.range 9) demoCut6 (demoDivided demoTables6 [] demoCut6) pieces demoTables6.reg ∧ SimpleEdges demoPs2 ∧
    (∀ f, f < 4 ↔ LiveF demoPs2 f) ∧ (∀ f ∈ List.range 4, demoCut6.faceEdges f ≠ [] → ∀ h ∈ demoPs2.fh f, (demoTables6.edges (edgeOf h)).length ≤ 1) ∧
    (∀ f ∈ List.range 4, ∀ g ∈ List.range 4, ∀ e ∈ demoCut6.faceEdges f, e ∈ demoCut6.faceEdges g → (f < 1 ↔ g < 1) → f = g) ∧
    ((sequential demoPs2 (demoDivided demoTables6 [] demoCut6) 1 7 demoTables6.reg keeping [0, 1, 2, 3]).bind
      (fun o => (Trace.users (demoDivided demoTables6 [] demoCut6).m0.numHalfedges o.polygons).bind (fun T => innerBorder (demoDivided demoTables6 [] demoCut6).m0 7 o.smCount o.polygons T 40 demoTables6.border))) = some [5, 9, 6, 4, 7] := by
  obtain ⟨pieces, G⟩ := demo2_given demoTest6 [(3, [0]), (4, [0]), (6, [0])] demoTables6 (by decide +kernel) (some_getD (by decide +kernel)) (by decide +kernel) (by decide +kernel)
    (by decide +kernel) [(0, 1), (0, 2)] (by decide +kernel) (by decide) [] (by simp) (by decide +kernel) (by simp) demoCut6 (some_getD (by decide +kernel))
  refine ⟨pieces, G, demo2_simple, ?_, by decide +kernel, by decide +kernel, by decide +kernel⟩
  intro f
  have nF : demoPs2.nF = 4 := by decide +kernel
  have fRem : demoPs2.fRem = [] := by decide +kernel
  unfold LiveF Live
  rw [nF, fRem]; simp

/-- The cut mesh is a single triangle; a corner of it, 5, pierces a triangle of the source mesh. -/
def demoTest7 (e f : Nat) : Outcome Unit := if f = 0 ∧ (e = 3 ∨ e = 4) then .point () else .miss
def demoTables7 : Tables Unit := (Registry.sequential demoPs 3 1 6 demoTest7 [(3, [0]), (4, [0])]).getD .empty
def demoCut7 : CutEdges.St Unit :=
  (cutEdges demoPs 6 demoTables7.reg id (fun _ _ _ => true) demoTables7.cut [(0, 1)] (addPoints (copyVertices () demoPs).1 demoTables7.pts)).getD ⟨Mesh.empty (), [], fun _ => [], fun _ => []⟩
def demoDivided7 : Boundary.St Unit := Boundary.sequential demoPs 6 demoTables7.edges (List.range 6) (part1 demoPs demoTables7.edges demoSort [] (Boundary.start demoCut7))

/-- The border inside of the source mesh that is found, for entry points `queue`. -/
def demoBorder7 (queue : List Nat) : Option (List Nat) :=
  (sequential demoPs demoDivided7 1 6 demoTables7.reg keeping [0, 1]).bind
    (fun o => (Trace.users demoDivided7.m0.numHalfedges o.polygons).bind (fun T => innerBorder demoDivided7.m0 6 o.smCount o.polygons T 40 queue))

/-- The simplest partial cut is affected by what `C92_skips_fails` shows. The cut mesh is a triangle with one corner, 5, on the other side of the source triangle; its sides meet the source triangle in the points 6 and 7. The corner is on the border that point 6 leads to (if 6 is the only
entry point, it is found). But the entry points are 6 and 7, in this order, and the polygon that begins at point 7 comes first: the border with the corners 3 and 4 is found twice, corner 5 is not found. -/
theorem C92_corner_fails : demoTables7.reg = [(3, 0), (4, 0)] ∧ demoTables7.border = [6, 7] ∧ demoTables7.partialCut = true ∧ demoBorder7 [6] = some [5, 7] ∧ demoBorder7 [7] = some [3, 4, 6] ∧ demoBorder7 demoTables7.border = some [3, 4, 6, 3, 4, 6] := by
  refine ⟨by decide +kernel, by decide +kernel, by decide +kernel, by decide +kernel, by decide +kernel, by decide +kernel⟩

end traced

end Mcut.Inner
