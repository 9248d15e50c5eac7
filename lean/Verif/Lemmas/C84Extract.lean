import Verif.Lemmas.C84Closed
import Verif.Spec.C84

/-!
# Lemmas for C84: the extraction of the sealed fragments
-/
namespace Mcut.Stitch
open Mcut.Hmesh Mcut.Extract Mcut.Preproc
open Mcut.Split (In SplitOf src_some sideOf_congr rotated_map)
open Mcut.Trace (src Round src_of dir_map dir_rot present)
variable {P : Type} {d : P} {m : Mesh P} {polysS : List (List Nat)}

/-- What is known about an extracted component. -/
structure Piece (d : P) (m : Mesh P) (polysS : List (List Nat)) (a : Args) (fs : List Nat) (c : Mesh P × Info) : Prop where
  copy : ∃ vs, Extract.CopyOf d m polysS c.1 vs fs ∧ (∀ i : Nat, i ∈ c.2.seams ↔ ∃ v : Nat, vs[i]? = some v ∧ a.flags[v]? = some true) ∧ c.2.seams.Nodup ∧
    (a.popV = true → c.2.vmap.length = vs.length ∧ ∀ (i v : Nat), vs[i]? = some v → vertexOrigin a.tables v = c.2.vmap[i]?)
  loc : if a.below = [] ∨ a.above = [] then c.2.loc = .undefined else sideOf a fs = some c.2.loc
  faces : a.popF = true → c.2.fmap.length = fs.length ∧ ∀ (i f : Nat), fs[i]? = some f → faceOrigin a.tables a.offset f = c.2.fmap[i]?

/-- The components, in the order of their ids. -/
theorem extract_list (hr : Reachable d m) (T : Traced m polysS) (a : Args) (threads : Option Nat)
    (ht : ∀ t, threads = some t → 0 < t ∧ polysS.length + 1024 ≤ 2 ^ 32) (hne : polysS ≠ [])
    (hv : a.popV = true → ∀ f, f < polysS.length → ∀ v ∈ corners m polysS f, vertexOrigin a.tables v ≠ none)
    (hf : a.popF = true → ∀ f, f < polysS.length → faceOrigin a.tables a.offset f ≠ none)
    (hl : a.below ≠ [] → a.above ≠ [] → ∀ f, f < polysS.length → ∃ g, g < polysS.length ∧ Extract.Linked m polysS f g ∧ (g ∈ a.below ∨ g ∈ a.above)) :
    ∃ frs groups, (extract d m polysS a threads (fun _ => [])).map (fun r => (present (Preproc.findComponents r.1).num r.2).flatMap r.2) = some frs ∧
      List.Forall₂ (Piece d m polysS a) groups frs ∧ groups.Pairwise List.Disjoint ∧ (∀ G ∈ groups, Wanted a G) ∧
      (∀ G ∈ groups, G ≠ [] ∧ ∀ f ∈ G, ∀ g, g ∈ G ↔ g < polysS.length ∧ Extract.Linked m polysS f g) ∧
      ∀ f, f < polysS.length → ∀ G, (∀ g, g ∈ G ↔ g < polysS.length ∧ Extract.Linked m polysS f g) → Wanted a G → ∃ G' ∈ groups, f ∈ G' := by
  cases hx : extract d m polysS a threads (fun _ => []) with
  | none => exact absurd hx (C59_no_exception hr T a threads ht hne hv hf hl (fun _ => []))
  | some r =>
    obtain ⟨mesh, out⟩ := r
    obtain ⟨vs, fs, h1, h2, h3, h4⟩ := C59_components hr T a threads ht mesh out hx
    obtain ⟨B, s, order, R, V, hperm, I, hsave⟩ := extract_run hr T a threads ht mesh _ out hx
    have hids : ∀ k, out k ≠ [] → k < (Preproc.findComponents mesh).num := by
      intro k hk
      by_contra hge
      obtain ⟨sv1, -⟩ := saveAll_spec (List.range (Preproc.findComponents mesh).num) (fun _ => []) out List.nodup_range (fun _ _ => rfl) hsave
      exact hk (sv1 k (by rw [List.mem_range]; exact hge))
    have hpres : ∀ k, k ∈ present (Preproc.findComponents mesh).num out ↔ fs k ≠ [] ∧ Wanted a (fs k) := by
      intro k
      unfold present
      rw [List.mem_filter, List.mem_range, ← h3 k]
      constructor
      · rintro ⟨-, h⟩ e
        rw [e] at h; cases h
      · intro hk
        refine ⟨hids k hk, ?_⟩
        cases hz : out k with
        | nil => exact absurd hz hk
        | cons x l => rfl
    have hnd : (present (Preproc.findComponents mesh).num out).Nodup := List.nodup_range.filter _
    refine ⟨_, (present (Preproc.findComponents mesh).num out).map fs, rfl, ?_, ?_, ?_, ?_, ?_⟩
    · have key : ∀ l : List Nat, (∀ k ∈ l, fs k ≠ [] ∧ Wanted a (fs k)) → List.Forall₂ (Piece d m polysS a) (l.map fs) (l.flatMap out) := by
        intro l
        induction l with
        | nil => intro _; exact .nil
        | cons k l ih =>
          intro h
          have hk := (h3 k).2 (h k List.mem_cons_self)
          obtain ⟨c, hc⟩ := List.exists_mem_of_ne_nil _ hk
          obtain ⟨e, C, q1, q2, q3, q4, q5⟩ := h4 k c hc
          rw [List.map_cons, List.flatMap_cons, e, List.singleton_append]
          exact .cons ⟨⟨vs k, C, q2, q3, q4⟩, q1, q5⟩ (ih (fun j hj => h j (List.mem_cons_of_mem _ hj)))
      exact key _ (fun k hk => (hpres k).1 hk)
    · rw [List.pairwise_map]
      refine hnd.pairwise_of_forall_ne ?_
      intro k hk k' hk' hne f hf1 hf2
      obtain ⟨x, -, x2⟩ := h1 f ((h2 k f hf1 f).1 hf1).1
      exact hne ((x2 k hf1).trans (x2 k' hf2).symm)
    · intro G hG
      obtain ⟨k, hk, rfl⟩ := List.mem_map.1 hG
      exact ((hpres k).1 hk).2
    · intro G hG
      obtain ⟨k, hk, rfl⟩ := List.mem_map.1 hG
      exact ⟨((hpres k).1 hk).1, h2 k⟩
    · intro f hfl G hG hwant
      obtain ⟨k, hk, -⟩ := h1 f hfl
      have same : ∀ g, g ∈ fs k ↔ g ∈ G := fun g => by rw [h2 k f hk g, hG g]
      have : Wanted a (fs k) := by
        unfold Wanted at hwant ⊢
        rw [sideOf_congr a same]; exact hwant
      exact ⟨fs k, List.mem_map.2 ⟨k, (hpres k).2 ⟨List.ne_nil_of_mem hk, this⟩, rfl⟩, hk⟩

/-- The corners of a face of the copy are where those of the polygon are. -/
theorem copy_places {c : Mesh P} {vs fs : List Nat} (C : Extract.CopyOf d m polysS c vs fs) {i f : Nat} (hf : fs[i]? = some f) : ((c.verticesAroundFace i).map c.pos) ~r ((corners m polysS f).map m.pos) := by
  have hrot := rotated_map (fun x : Option Nat => (x.map m.pos).getD d) (C.faces i f hf)
  have e1 : ((c.verticesAroundFace i).map (fun x => vs[x]?)).map (fun x : Option Nat => (x.map m.pos).getD d) = (c.verticesAroundFace i).map c.pos := by
    rw [List.map_map]
    refine List.map_congr_left (fun x hx => ?_)
    have : vs[x]? ∈ (corners m polysS f).map some := (C.faces i f hf).perm.subset (List.mem_map.2 ⟨x, hx, rfl⟩)
    obtain ⟨v, -, ev⟩ := List.mem_map.1 this
    show ((vs[x]?).map m.pos).getD d = _
    rw [← ev, C.pos x v ev.symm]; rfl
  have e2 : ((corners m polysS f).map some).map (fun x : Option Nat => (x.map m.pos).getD d) = (corners m polysS f).map m.pos := by
    rw [List.map_map]; rfl
  rw [e1, e2] at hrot
  exact hrot

end Mcut.Stitch
