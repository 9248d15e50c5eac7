import Verif.Lemmas.C77Run
import Verif.Lemmas.C76Cross
import Mathlib.Data.List.Rotate

/-! Lemmas for C77: the links. -/
namespace Mcut.Split
open Mcut.Hmesh Mcut.Extract
open Mcut.Trace (src Follows)
variable {P : Type}

theorem setNext_spec (m : Mesh P) (a b : Nat) : (m.setNext a b).nV = m.nV ∧ (m.setNext a b).pos = m.pos ∧ (∀ h, (m.setNext a b).target h = m.target h) ∧
    (∀ h, src (m.setNext a b) h = src m h) ∧ (∀ h, (m.setNext a b).next h = if h = a then some b else m.next h) ∧ (∀ h, (m.setNext a b).prev h = if h = b then some a else m.prev h) := by
  have ht : ∀ h, ((m.setNext a b).hd h).t = (m.hd h).t := by
    intro h
    simp only [Mesh.setNext, upd]
    by_cases h1 : h = b
    · by_cases h2 : b = a
      · simp [h1, h2]
      · simp [h1, h2]
    · by_cases h2 : h = a
      · have : a ≠ b := h2 ▸ h1
        simp [h2, this]
      · simp [h1, h2]
  have ho : ∀ h, ((m.setNext a b).hd h).o = (m.hd h).o := by
    intro h
    simp only [Mesh.setNext, upd]
    by_cases h1 : h = b
    · by_cases h2 : b = a
      · simp [h1, h2]
      · simp [h1, h2]
    · by_cases h2 : h = a
      · have : a ≠ b := h2 ▸ h1
        simp [h2, this]
      · simp [h1, h2]
  refine ⟨rfl, rfl, ht, ?_, ?_, ?_⟩
  · intro h
    unfold src Mesh.source
    rw [ho]
    cases (m.hd h).o with
    | none => rfl
    | some o => simp only [Option.map_some, ht]
  · intro h
    unfold Mesh.next
    simp only [Mesh.setNext, upd]
    by_cases h1 : h = b
    · by_cases h2 : b = a
      · simp [h1, h2]
      · simp [h1, h2]
    · by_cases h2 : h = a
      · have : a ≠ b := h2 ▸ h1
        simp [h2, this]
      · simp [h1, h2]
  · intro h
    unfold Mesh.prev
    simp only [Mesh.setNext, upd]
    by_cases h1 : h = b
    · simp [h1]
    · by_cases h2 : h = a
      · have : a ≠ b := h2 ▸ h1
        simp [h2, this]
      · simp [h1, h2]

/-- The pairs of neighbours of a polygon. -/
def steps (p : List Nat) : List (Nat × Nat) := (List.range p.length).map (fun i => (p.getD i 0, p.getD ((i + 1) % p.length) 0))

theorem steps_fst (p : List Nat) : (steps p).map (·.1) = p := by
  apply List.ext_getElem?
  intro i
  unfold steps
  rw [List.map_map, List.getElem?_map]
  by_cases h : i < p.length
  · rw [List.getElem?_range h, List.getElem?_eq_getElem h]; simp [List.getD_eq_getElem?_getD, h]
  · rw [List.getElem?_eq_none (by simpa using Nat.not_lt.1 h), List.getElem?_eq_none (by omega)]; rfl

theorem steps_snd (p : List Nat) : (steps p).map (·.2) = p.rotate 1 := by
  apply List.ext_getElem?
  intro i
  unfold steps
  rw [List.map_map, List.getElem?_map]
  by_cases h : i < p.length
  · have hm : (i + 1) % p.length < p.length := Nat.mod_lt _ (by omega)
    rw [List.getElem?_range h, List.getElem?_rotate h, List.getElem?_eq_getElem hm]; simp [List.getD_eq_getElem?_getD, hm]
  · rw [List.getElem?_eq_none (by simpa using Nat.not_lt.1 h), List.getElem?_eq_none (by simpa using Nat.not_lt.1 h)]; rfl

theorem mem_steps {p : List Nat} {a b : Nat} : (a, b) ∈ steps p ↔ Follows p a b := by
  unfold steps Follows
  rw [List.mem_map]
  constructor
  · rintro ⟨i, hi, e⟩
    rw [List.mem_range] at hi
    have hm : (i + 1) % p.length < p.length := Nat.mod_lt _ (by omega)
    simp only [Prod.mk.injEq, List.getD_eq_getElem?_getD, List.getElem?_eq_getElem hi, List.getElem?_eq_getElem hm, Option.getD_some] at e
    exact ⟨i, by rw [List.getElem?_eq_getElem hi, e.1], by rw [List.getElem?_eq_getElem hm, e.2]⟩
  · rintro ⟨k, h1, h2⟩
    obtain ⟨hk, -⟩ := List.getElem?_eq_some_iff.1 h1
    exact ⟨k, List.mem_range.2 hk, by simp [List.getD_eq_getElem?_getD, h1, h2]⟩

theorem link_eq (m0 : Mesh P) (polys : List (List Nat)) : link m0 polys = (polys.flatMap steps).foldl (fun m x => m.setNext x.1 x.2) m0 := by
  unfold link
  induction polys generalizing m0 with
  | nil => rfl
  | cons p l ih =>
    rw [List.foldl_cons, ih, List.flatMap_cons, List.foldl_append]
    congr 1
    unfold linkOne steps
    rw [List.foldl_map]

theorem fold_link (m0 : Mesh P) (L : List (Nat × Nat)) : Same m0 (L.foldl (fun m x => m.setNext x.1 x.2) m0) ∧
    ((L.map (·.1)).Nodup → (L.map (·.2)).Nodup → ∀ a b, (a, b) ∈ L → (L.foldl (fun m x => m.setNext x.1 x.2) m0).next a = some b ∧ (L.foldl (fun m x => m.setNext x.1 x.2) m0).prev b = some a) := by
  induction L using List.reverseRecOn with
  | nil => exact ⟨⟨rfl, rfl, fun _ => rfl, fun _ => rfl⟩, fun _ _ a b h => by cases h⟩
  | append_singleton L x ih =>
    obtain ⟨i1, i2⟩ := ih
    rw [List.foldl_append, List.foldl_cons, List.foldl_nil]
    obtain ⟨s1, s2, s3, s4, s5, s6⟩ := setNext_spec (L.foldl (fun m x => m.setNext x.1 x.2) m0) x.1 x.2
    refine ⟨⟨by rw [s1, i1.nV], by rw [s2, i1.pos], fun h => by rw [s3, i1.target], fun h => by rw [s4, i1.src]⟩, ?_⟩
    intro n1 n2 a b hab
    rw [List.map_append, List.nodup_append] at n1 n2
    rw [s5, s6]
    rcases List.mem_append.1 hab with hab | hab
    · obtain ⟨k1, k2⟩ := i2 n1.1 n2.1 a b hab
      have h1 : a ≠ x.1 := n1.2.2 a (List.mem_map.2 ⟨_, hab, rfl⟩) x.1 (by simp)
      have h2 : b ≠ x.2 := n2.2.2 b (List.mem_map.2 ⟨_, hab, rfl⟩) x.2 (by simp)
      rw [if_neg h1, if_neg h2]; exact ⟨k1, k2⟩
    · rw [List.mem_singleton] at hab
      subst hab
      simp

/-- After the links, the next halfedge is that of the polygon. -/
theorem link_spec (m0 : Mesh P) (polys : List (List Nat)) : Same m0 (link m0 polys) ∧
    (polys.flatten.Nodup → ∀ p ∈ polys, ∀ a b, Follows p a b → (link m0 polys).next a = some b ∧ (link m0 polys).prev b = some a) := by
  rw [link_eq]
  obtain ⟨h1, h2⟩ := fold_link m0 (polys.flatMap steps)
  refine ⟨h1, fun hnd p hp a b hab => h2 ?_ ?_ a b (List.mem_flatMap.2 ⟨p, hp, mem_steps.2 hab⟩)⟩
  · rw [List.map_flatMap]
    simp only [steps_fst, List.flatMap_id']; exact hnd
  · rw [List.map_flatMap]
    simp only [steps_snd]
    refine (List.Perm.nodup_iff ?_).2 hnd
    clear hnd hp h1 h2
    induction polys with
    | nil => simp
    | cons q l ih => rw [List.flatMap_cons, List.flatten_cons]; exact (List.rotate_perm q 1).append ih

end Mcut.Split
