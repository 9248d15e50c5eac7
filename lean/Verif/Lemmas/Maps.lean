import Verif.Props.C40
import Verif.Spec.C27

/-! The maps of stored components. -/
namespace Mcut.Dispatch
open Mcut.Hmesh Mcut.Preproc Mcut.Partition
variable {D : Type}

theorem lookup_offset (a b i : Nat) : ∀ l : List (Nat × Nat), (l.map (fun e => (e.1 + a, e.2 + b))).lookup (a + i) = (l.lookup i).map (· + b)
  | [] => rfl
  | (k, v) :: l => by
    simp only [List.map_cons, List.lookup_cons]
    by_cases h : i = k
    · subst h
      simp [Nat.add_comm]
    · have h1 : (a + i == k + a) = false := by simp; omega
      have h2 : (i == k) = false := by simpa using h
      rw [h1, h2]
      exact lookup_offset a b i l

/-- The partition data of a stored component. -/
def TagsOf (c : Client) (s : St) (x : Stored D) : Prop :=
    x.srcBirth = s.src.birth ∧ x.cutBirth = s.cut.birth.map (fun e => (e.1 + s.src.mesh.numFaces, e.2 + s.prev)) ∧ x.srcNewV = s.src.newV ∧
    x.cutNewV = s.cut.newV.map (fun v => v + s.src.mesh.numVertices) ∧ x.internalSrcV = s.src.mesh.numVertices ∧ x.clientSrcV = c.src.numVertices ∧
    x.internalSrcF = s.src.mesh.numFaces ∧ x.clientSrcF = c.src.numFaces

/-- The partition data of all stored components. -/
theorem store_tags {c : Client} {s : St} {o : KOut D} {x : Stored D} (hx : x ∈ store c s o) : TagsOf c s x := by
  unfold store at hx
  simp only [List.mem_reverse, List.mem_append, List.mem_map, List.mem_cons, List.not_mem_nil, or_false] at hx
  have seam : ∀ (o : Option (D × Nat)) (f : D → Stored D) (P : Stored D → Prop), (∀ d, P (f d)) → x ∈ (match o with
      | some (d, n) => if 0 < n then [f d] else []
      | .none => []) → P x := by
    intro o f P hf hx
    split at hx
    · split at hx
      · rw [List.mem_singleton.1 hx]; exact hf _
      · cases hx
    · cases hx
  rcases hx with (((((⟨y, -, rfl⟩ | ⟨y, -, rfl⟩) | ⟨y, -, rfl⟩) | ⟨y, -, rfl⟩) | hx) | hx) | (rfl | rfl)
  · exact ⟨rfl, rfl, rfl, rfl, rfl, rfl, rfl, rfl⟩
  · exact ⟨rfl, rfl, rfl, rfl, rfl, rfl, rfl, rfl⟩
  · exact ⟨rfl, rfl, rfl, rfl, rfl, rfl, rfl, rfl⟩
  · exact ⟨rfl, rfl, rfl, rfl, rfl, rfl, rfl, rfl⟩
  · exact seam _ _ (TagsOf c s) (fun _ => ⟨rfl, rfl, rfl, rfl, rfl, rfl, rfl, rfl⟩) hx
  · exact seam _ _ (TagsOf c s) (fun _ => ⟨rfl, rfl, rfl, rfl, rfl, rfl, rfl, rfl⟩) hx
  · exact ⟨rfl, rfl, rfl, rfl, rfl, rfl, rfl, rfl⟩
  · exact ⟨rfl, rfl, rfl, rfl, rfl, rfl, rfl, rfl⟩

/-- A finished dispatch with components. -/
theorem run_state {c : Client} (hc : c.Sized) {env : LoadEnv} {enc : Enclosure} {its : List (Iter D)} (L : Possible c env its) {s : St} {cs : List (Stored D)} {ty : Option IType}
    (h : preproc c env enc its = some (.ok s cs ty)) (hne : cs ≠ []) :
    Books c its s ∧ s.calls.getLast? = some (callOf s) ∧ s.prev = s.src.mesh.numFaces ∧ ∃ o, cs = store c s o := by
  rcases preproc_out hc L h with ⟨e, h'⟩ | h' | ⟨pre, it, post, e, ⟨B, C, hcnt, hh⟩, -, -⟩
  · cases h'
  · cases h'
  · rcases hh with ⟨he, -, h2, -⟩ | ⟨-, hlast, hp, h2, hans, -⟩
    · exact absurd h2 hne
    · refine ⟨⟨B.src, B.cut, B.rel, B.zero, B.enf, ?_, B.bound⟩, hlast, hp, _, h2⟩
      intro d h0
      obtain ⟨x, hx, e'⟩ := B.scaled d h0
      exact ⟨x, by rw [e]; simp at hx ⊢; tauto, e'⟩

end Mcut.Dispatch
