import Verif.Lemmas.C78
import Verif.Lemmas.C74All

/-!
# Lemmas for C78: the extraction of the fragments
-/
namespace Mcut.Split
open Mcut.Hmesh Mcut.Extract
open Mcut.Trace (src Follows present)
variable {P : Type} {d : P} {m0 m1 : Mesh P} {base numCut : Nat} {polys polys1 : List (List Nat)} {ver orig : Nat → Nat}

theorem rotated_map {α β : Type} (g : α → β) {l l' : List α} (h : l ~r l') : (l.map g) ~r (l'.map g) := by
  obtain ⟨n, rfl⟩ := h
  exact ⟨n, by rw [List.map_rotate]⟩

theorem sideOf_congr (a : Args) {l l' : List Nat} (h : ∀ g, g ∈ l ↔ g ∈ l') : Extract.sideOf a l = Extract.sideOf a l' := by
  have : ∀ s : List Nat, (∃ g ∈ l, g ∈ s) ↔ (∃ g ∈ l', g ∈ s) := by
    intro s; constructor <;> rintro ⟨g, h1, h2⟩
    · exact ⟨g, (h g).1 h1, h2⟩
    · exact ⟨g, (h g).2 h1, h2⟩
  unfold Extract.sideOf
  simp only [this]

theorem SplitOf.base_iff (S : SplitOf d m0 base numCut polys m1 polys1 ver orig) {v : Nat} (hv : v < m1.nV) : base ≤ v ↔ base ≤ orig v := by
  by_cases h : v < m0.nV
  · rw [S.kept.2 v h]
  · have := S.copies v (by omega) hv
    constructor
    · intro _; exact this.1
    · intro _; omega

/-- The extraction from the polygons that were cut apart yields the fragments. -/
theorem fragments_extract (r0 : Reachable d m0) (S : SplitOf d m0 base numCut polys m1 polys1 ver orig) (F : Flat m0 base polys) (T : Traced m0 polys) (hne : polys ≠ [])
    (tab : Extract.Tables) (below above : List Nat) (w : FragOptions) (threads : Option Nat) (ht : ∀ t, threads = some t → 0 < t ∧ polys.length + 1024 ≤ 2 ^ 32)
    (hv : ∀ v, v < m1.nV → vertexOrigin tab v = some (if orig v < base then some (orig v) else none)) (face : Nat → Option Nat)
    (hf : ∀ f, f < polys.length → face f ≠ none ∧ faceOrigin tab 0 f = face f)
    (hl : below ≠ [] → above ≠ [] → ∀ f, f < polys.length → ∃ g, g < polys.length ∧ SameFragment m0 base numCut polys f g ∧ (g ∈ below ∨ g ∈ above))
    (hw : w.keepUnsealed = true ∨ w.keep.partly = true) :
    ∃ frs, unsealedList d m1 polys1 (fragArgs m1 base tab below above w) w threads = some frs ∧
      FragmentsOf d m0 base numCut polys m1 polys1 orig face (fragArgs m1 base tab below above w) w frs := by
  have T1 := S.traced T
  have hr := S.mesh.1
  have hlen : polys1.length = polys.length := by rw [S.polygons]; simp
  set a := fragArgs m1 base tab below above w with ha
  have hcorn : ∀ f, f < polys1.length → ∀ v ∈ corners m1 polys1 f, v < m1.nV := by
    intro f hf v hv
    have : corners m1 polys1 f ∈ polys1.map (fun p => p.map m1.target) := by
      unfold corners
      rw [List.getD_eq_getElem?_getD, List.getElem?_eq_getElem hf]
      exact List.mem_map.2 ⟨_, List.getElem_mem hf, rfl⟩
    exact (T1.valid.1 _ this).2.2 v hv
  have hon : (w.keepUnsealed || w.keep.partly) = true := by rcases hw with h | h <;> simp [h]
  unfold unsealedList
  rw [if_pos hon]
  cases hx : extract d m1 polys1 a threads (fun _ => []) with
  | none =>
    exfalso
    refine C59_no_exception hr T1 a threads (by rw [hlen]; exact ht) (by intro h; apply hne; rw [S.polygons] at h; exact List.map_eq_nil_iff.1 h) ?_ ?_ ?_ (fun _ => []) hx
    · intro _ f hfl v hv'
      show vertexOrigin tab v ≠ none
      rw [hv v (hcorn f hfl v hv')]; simp
    · intro _ f hfl
      show faceOrigin tab 0 f ≠ none
      rw [(hf f (by omega)).2]; exact (hf f (by omega)).1
    · intro h1 h2 f hfl
      obtain ⟨g, g1, g2, g3⟩ := hl h1 h2 f (by omega)
      exact ⟨g, by omega, (S.linked r0 F T1 (by omega) g1).2 g2, g3⟩
  | some r =>
    obtain ⟨mesh, out⟩ := r
    obtain ⟨vs, fs, h1, h2, h3, h4⟩ := C59_components hr T1 a threads (by rw [hlen]; exact ht) mesh out hx
    obtain ⟨B, s, order, R, V, hperm, I, hsave⟩ := extract_run hr T1 a threads (by rw [hlen]; exact ht) mesh _ out hx
    have hids : ∀ k, out k ≠ [] → k < (Preproc.findComponents mesh).num := by
      intro k hk
      by_contra hge
      obtain ⟨sv1, -⟩ := saveAll_spec (List.range (Preproc.findComponents mesh).num) (fun _ => []) out List.nodup_range (fun _ _ => rfl) hsave
      exact hk (sv1 k (by rw [List.mem_range]; exact hge))
    have hpres : ∀ k, k ∈ present (Preproc.findComponents mesh).num out ↔ fs k ≠ [] ∧ Wanted a (fs k) := by
      intro k
      unfold present
      rw [List.mem_filter, List.mem_range, ← h3 k]
      constructor
      · rintro ⟨-, h⟩ e
        rw [e] at h; cases h
      · intro hk
        refine ⟨hids k hk, ?_⟩
        cases hz : out k with
        | nil => exact absurd hz hk
        | cons x l => rfl
    have hnd : (present (Preproc.findComponents mesh).num out).Nodup := List.nodup_range.filter _
    have h2' : ∀ k f, f ∈ fs k → ∀ g, g ∈ fs k ↔ g < polys.length ∧ SameFragment m0 base numCut polys f g := by
      intro k f hfk g
      have hfl : f < polys.length := by rw [← hlen]; exact ((h2 k f hfk f).1 hfk).1
      rw [h2 k f hfk g, hlen]
      exact ⟨fun ⟨p, q⟩ => ⟨p, (S.linked r0 F T1 hfl p).1 q⟩, fun ⟨p, q⟩ => ⟨p, (S.linked r0 F T1 hfl p).2 q⟩⟩
    have frag : ∀ k c, out k = [c] → FragmentOf d m0 base polys m1 polys1 orig face a w (fs k) c := by
      intro k c hc
      obtain ⟨-, C, q1, q2, q3, q4, q5⟩ := h4 k c (by rw [hc]; exact List.mem_cons_self)
      have hvs : ∀ i v : Nat, (vs k)[i]? = some v → v < m1.nV := by
        intro i v hi
        obtain ⟨f, hf1, hf2⟩ := (C.used v).1 (List.mem_of_getElem? hi)
        exact hcorn f (C.range f hf1) v hf2
      refine ⟨⟨vs k, C, ?_, q3, ?_, ?_⟩, ?_, q1⟩
      · intro i
        rw [q2 i]
        constructor
        · rintro ⟨v, v1, v2⟩
          refine ⟨v, v1, (S.base_iff (hvs i v v1)).1 ?_⟩
          change (markSeam m1 base (some m1.nV))[v]? = some true at v2
          unfold markSeam at v2
          rw [List.getElem?_map, Option.map_eq_some_iff] at v2
          obtain ⟨y, y1, y2⟩ := v2
          obtain ⟨hy, rfl⟩ := List.getElem?_eq_some_iff.1 y1
          simp at y2
          exact y2.1
        · rintro ⟨v, v1, v2⟩
          refine ⟨v, v1, ?_⟩
          have hv1 := hvs i v v1
          show (markSeam m1 base (some m1.nV))[v]? = some true
          unfold markSeam
          have hnum : v < m1.numVertices := by simp [Mesh.numVertices, S.mesh.2.2.1, hv1]
          rw [List.getElem?_map, List.getElem?_range hnum]
          simp [(S.base_iff hv1).2 v2, hv1]
      · intro hp
        obtain ⟨l1, l2⟩ := q4 hp
        refine ⟨l1, fun i v hi => ?_⟩
        rw [← l2 i v hi]
        exact hv v (hvs i v hi)
      · intro hp
        obtain ⟨l1, l2⟩ := q5 hp
        refine ⟨l1, fun i f hi => ?_⟩
        rw [← l2 i f hi]
        exact (hf f (by rw [← hlen]; exact C.range f (List.mem_of_getElem? hi))).2
      · intro i f l hi hp
        have hrot := rotated_map (fun x : Option Nat => (x.map m1.pos).getD d) (C.faces i f hi)
        have e1 : ((c.1.verticesAroundFace i).map (fun x => (vs k)[x]?)).map (fun x : Option Nat => (x.map m1.pos).getD d) = (c.1.verticesAroundFace i).map c.1.pos := by
          rw [List.map_map]
          refine List.map_congr_left (fun x hx => ?_)
          have : (vs k)[x]? ∈ (corners m1 polys1 f).map some := (C.faces i f hi).perm.subset (List.mem_map.2 ⟨x, hx, rfl⟩)
          obtain ⟨v, -, ev⟩ := List.mem_map.1 this
          show (((vs k)[x]?).map m1.pos).getD d = _
          rw [← ev, C.pos x v ev.symm]; rfl
        have e2 : ((corners m1 polys1 f).map some).map (fun x : Option Nat => (x.map m1.pos).getD d) = l.map (fun h => m0.pos (m0.target h)) := by
          have : corners m1 polys1 f = l.map (fun h => m1.target (ver h)) := by
            unfold corners
            rw [S.polygons, List.getD_eq_getElem?_getD, List.getElem?_map, hp]
            simp
          rw [this, List.map_map, List.map_map]
          refine List.map_congr_left (fun h hh => ?_)
          have hin : In polys h := ⟨l, List.mem_of_getElem? hp, hh⟩
          show m1.pos (m1.target (ver h)) = _
          rw [S.places _ (S.target_lt hin), (S.ends h hin).2]
        rw [e1, e2] at hrot
        exact hrot
    refine ⟨_, rfl, (present (Preproc.findComponents mesh).num out).map fs, ?_, ?_, ?_, ?_⟩
    · have key : ∀ l : List Nat, (∀ k ∈ l, fs k ≠ [] ∧ Wanted a (fs k)) → List.Forall₂ (FragmentOf d m0 base polys m1 polys1 orig face a w) (l.map fs) (l.filterMap (fun k => (out k).head?)) := by
        intro l
        induction l with
        | nil => intro _; exact .nil
        | cons k l ih =>
          intro h
          have hk := (h3 k).2 (h k List.mem_cons_self)
          obtain ⟨c, hc⟩ := List.exists_mem_of_ne_nil _ hk
          have e := (h4 k c hc).1
          rw [List.map_cons, List.filterMap_cons, e]
          exact .cons (frag k c e) (ih (fun j hj => h j (List.mem_cons_of_mem _ hj)))
      exact key _ (fun k hk => (hpres k).1 hk)
    · rw [List.pairwise_map]
      refine hnd.pairwise_of_forall_ne ?_
      intro k hk k' hk' hne f hf1 hf2
      obtain ⟨x, -, x2⟩ := h1 f ((h2 k f hf1 f).1 hf1).1
      exact hne ((x2 k hf1).trans (x2 k' hf2).symm)
    · intro G hG
      obtain ⟨k, hk, rfl⟩ := List.mem_map.1 hG
      obtain ⟨p1, p2⟩ := (hpres k).1 hk
      exact ⟨p1, p2, h2' k⟩
    · intro f hfl G hG hwant
      obtain ⟨k, hk, -⟩ := h1 f (by omega)
      have same : ∀ g, g ∈ fs k ↔ g ∈ G := fun g => by rw [h2' k f hk g, hG g]
      have : Wanted a (fs k) := by
        unfold Wanted at hwant ⊢
        rw [sideOf_congr a same]; exact hwant
      exact ⟨fs k, List.mem_map.2 ⟨k, (hpres k).2 ⟨List.ne_nil_of_mem hk, this⟩, rfl⟩, hk⟩

end Mcut.Split
