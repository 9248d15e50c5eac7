import Verif.Lemmas.PartFrame
import Verif.Spec.C27

/-! The bookkeeping of partitions. -/
namespace Mcut.Partition
open Mcut.Hmesh
variable {P : Type}

/-- The maps of a book agree with the history of its mesh, seen from `m0`. -/
structure BookOK (m0 : Mesh P) (b : Book P) (H : List (Nat × Nat)) : Prop where
  evolves : Evolves m0 H b.mesh
  vRem : b.mesh.vRem = []
  fRem : b.mesh.fRem = []
  leF : m0.nF ≤ b.mesh.nF
  leV : m0.nV ≤ b.mesh.nV
  birth : ∀ f, f < b.mesh.nF → b.birth.lookup f = some (origin H f) ∨ b.birth.lookup f = none ∧ origin H f = f
  range : ∀ f, f < b.mesh.nF → origin H f < m0.nF
  low : ∀ f c, b.birth.lookup f = some c → f < m0.nF → c = f
  old : ∀ v ∈ b.newV, m0.nV ≤ v
  new : ∀ v, m0.nV ≤ v → v < b.mesh.nV → v ∈ b.newV
  pos : ∀ v, v < m0.nV → b.mesh.pos v = m0.pos v

/-- A freshly read mesh, whatever the maps still hold of an earlier reading of a mesh of the same size. -/
theorem BookOK.fresh {m0 m1 : Mesh P} {b : Book P} {H : List (Nat × Nat)} (B : BookOK m0 b H) (hv : m1.vRem = []) (hf : m1.fRem = [])
    (hnV : m1.nV = m0.nV) (hnF : m1.nF = m0.nF) : BookOK m1 { b with mesh := m1 } [] where
  evolves := .refl
  vRem := hv
  fRem := hf
  leF := Nat.le_refl _
  leV := Nat.le_refl _
  birth := by
    intro f hf'
    cases h : b.birth.lookup f with
    | none => exact .inr ⟨rfl, rfl⟩
    | some c => left; rw [B.low f c h (hnF ▸ hf')]; rfl
  range := fun f h => h
  low := fun f c h hf' => B.low f c h (hnF ▸ hf')
  old := fun v h => hnV ▸ B.old v h
  new := fun v h h' => absurd h (by simpa using h')
  pos := fun v _ => rfl

theorem BookOK.init {m1 : Mesh P} (hv : m1.vRem = []) (hf : m1.fRem = []) : BookOK m1 ⟨m1, [], []⟩ [] where
  evolves := .refl
  vRem := hv
  fRem := hf
  leF := Nat.le_refl _
  leV := Nat.le_refl _
  birth := fun f _ => .inr ⟨rfl, rfl⟩
  range := fun f h => h
  low := fun f c h => by cases h
  old := fun v h => by cases h
  new := fun v h h' => absurd h (by simpa using h')
  pos := fun v _ => rfl

theorem lookup_two (l : List (Nat × Nat)) (a b c d k : Nat) : List.lookup k ((a, b) :: (c, d) :: l) = if k = a then some b else if k = c then some d else l.lookup k := by
  simp only [List.lookup_cons]
  by_cases h1 : k = a
  · subst h1; simp
  · have : (k == a) = false := by simpa using h1
    rw [this]
    simp only [h1, if_false]
    by_cases h2 : k = c
    · subst h2; simp
    · have : (k == c) = false := by simpa using h2
      rw [this]; simp [h2]

/-- One partition. -/
theorem BookOK.split {m0 : Mesh P} {b : Book P} {H : List (Nat × Nat)} (B : BookOK m0 b H) {s : Split P} {r : SplitResult P}
    (hr : splitFace b.mesh s = some r) (hs : s.face < b.mesh.nF) (client : Nat) (hc : client = origin H s.face)
    (hl : s.face < m0.nF → client = s.face) :
    BookOK m0 ⟨r.mesh, (r.child1, client) :: (r.child0, client) :: b.birth, b.newV ++ [r.x0, r.x1]⟩ ((s.face, r.child1) :: H) := by
  have S := splitFace_slots B.vRem B.fRem hr
  exact {
    evolves := .step B.evolves hr
    vRem := S.vRem
    fRem := S.fRem
    leF := by have := B.leF; show _ ≤ r.mesh.nF; rw [S.nF]; omega
    leV := by have := B.leV; show _ ≤ r.mesh.nV; rw [S.nV]; omega
    birth := by
      intro f hf
      have hf' : f < r.mesh.nF := hf
      rw [S.nF] at hf'
      show List.lookup f ((r.child1, client) :: (r.child0, client) :: b.birth) = _ ∨ _
      rw [lookup_two, S.child1, S.child0]
      simp only [origin]
      by_cases h1 : f = b.mesh.nF
      · left; rw [if_pos h1, if_pos h1, hc]
      · rw [if_neg h1, if_neg h1]
        by_cases h2 : f = s.face
        · left; rw [if_pos h2, hc, h2]
        · rw [if_neg h2]
          exact B.birth f (by omega)
    range := by
      intro f hf
      have hf' : f < r.mesh.nF := hf
      rw [S.nF] at hf'
      simp only [origin]
      split
      · exact B.range _ hs
      · next h => rw [S.child1] at h; exact B.range f (by omega)
    low := by
      intro f c h hf
      have h' : List.lookup f ((r.child1, client) :: (r.child0, client) :: b.birth) = some c := h
      rw [lookup_two, S.child1, S.child0] at h'
      have := B.leF
      rw [if_neg (by omega)] at h'
      split at h'
      · next hh => rw [← Option.some.inj h', hl (hh ▸ hf), hh]
      · exact B.low f c h' hf
    old := by
      intro v hv
      have hv' : v ∈ b.newV ++ [r.x0, r.x1] := hv
      have := B.leV
      rcases List.mem_append.1 hv' with h | h
      · exact B.old v h
      · rw [S.x0, S.x1] at h
        simp only [List.mem_cons, List.not_mem_nil, or_false] at h
        omega
    new := by
      intro v h1 h2
      have h2' : v < r.mesh.nV := h2
      rw [S.nV] at h2'
      show v ∈ b.newV ++ [r.x0, r.x1]
      rw [List.mem_append]
      by_cases h : v < b.mesh.nV
      · exact .inl (B.new v h1 h)
      · right; rw [S.x0, S.x1]; simp only [List.mem_cons, List.not_mem_nil, or_false]; omega
    pos := by
      intro v hv
      have := B.leV
      show r.mesh.pos v = _
      rw [S.old v (by omega)]; exact B.pos v hv }

theorem mem_of_lookup {l : List (Nat × Nat)} {k c : Nat} (h : l.lookup k = some c) : (k, c) ∈ l := by
  induction l with
  | nil => cases h
  | cons x l ih =>
    obtain ⟨a, b⟩ := x
    rw [List.lookup_cons] at h
    split at h
    · next hh => have : k = a := by simpa using hh
                 subst this; cases h; exact List.mem_cons_self
    · exact List.mem_cons_of_mem _ (ih h)

theorem resolveOne_ok {m0 : Mesh P} {b b' : Book P} {H : List (Nat × Nat)} (B : BookOK m0 b H) {parent : Nat} (hp : parent < b.mesh.nF) {ch : Choice P}
    (hr : resolveOne b parent ch = .ok b') : ∃ H', BookOK m0 b' H' ∧ b.mesh.nF ≤ b'.mesh.nF := by
  unfold resolveOne at hr
  dsimp only at hr
  split at hr
  · next hl =>
    split at hr
    · cases hr
    · cases hr
    · next s =>
      split at hr
      · next hs =>
        split at hr
        · cases hr
        · next r hsp =>
          cases hr
          refine ⟨_, B.split hsp (hs ▸ hp) parent ?_ (fun _ => hs.symm), ?_⟩
          · rcases B.birth parent hp with h | h
            · rw [hl] at h; cases h
            · rw [hs, h.2]
          · show _ ≤ r.mesh.nF; rw [(splitFace_slots B.vRem B.fRem hsp).nF]; omega
      · cases hr
  · next client hl =>
    split at hr
    · cases hr
    · next hany =>
      split at hr
      · cases hr; exact ⟨H, B, Nat.le_refl _⟩
      · cases hr
      · next s =>
        split at hr
        · next hs =>
          split at hr
          · cases hr
          · next r hsp =>
            cases hr
            have hlt : s.face < b.mesh.nF := by
              by_contra hcon
              apply hany
              rw [List.any_eq_true]
              exact ⟨_, mem_of_lookup hs, by simpa using ⟨hs, by omega⟩⟩
            refine ⟨_, B.split hsp hlt client ?_ (fun h => B.low _ _ hs h), ?_⟩
            · rcases B.birth s.face hlt with h | h
              · rw [hs] at h; exact Option.some.inj h
              · rw [hs] at h; cases h.1
            · show _ ≤ r.mesh.nF; rw [(splitFace_slots B.vRem B.fRem hsp).nF]; omega
        · cases hr

theorem resolveFace_ok {m0 : Mesh P} (parent : Nat) : ∀ (cs : List (Choice P)) {b b' : Book P} {H : List (Nat × Nat)}, BookOK m0 b H → parent < b.mesh.nF →
    resolveFace b parent cs = .ok b' → ∃ H', BookOK m0 b' H'
  | [], b, b', H, B, hp, hr => by cases hr; exact ⟨H, B⟩
  | c :: cs, b, b', H, B, hp, hr => by
    simp only [resolveFace] at hr
    split at hr
    · cases hr
    · cases hr
    · next b1 h1 =>
      obtain ⟨H1, B1, hle⟩ := resolveOne_ok B hp h1
      exact resolveFace_ok parent cs B1 (by omega) hr

theorem numFaces_eq {m : Mesh P} (h : m.fRem = []) : m.numFaces = m.nF := by simp [Mesh.numFaces, h]
theorem numVertices_eq {m : Mesh P} (h : m.vRem = []) : m.numVertices = m.nV := by simp [Mesh.numVertices, h]

theorem resolve_ok {ms mc : Mesh P} (prev : Nat) : ∀ (l : List (Nat × List (Choice P))) {src cut src' cut' : Book P} {a b a' b' : Bool} {H K : List (Nat × Nat)},
    BookOK ms src H → BookOK mc cut K → resolve prev (src, cut, a, b) l = .ok (src', cut', a', b') → ∃ H' K', BookOK ms src' H' ∧ BookOK mc cut' K'
  | [], _, _, _, _, _, _, _, _, H, K, B, C, hr => by cases hr; exact ⟨H, K, B, C⟩
  | (raw, cs) :: l, src, cut, src', cut', a, b, a', b', H, K, B, C, hr => by
    simp only [resolve] at hr
    split at hr
    · split at hr
      · cases hr
      · next hlt =>
        rw [numFaces_eq B.fRem] at hlt
        split at hr
        · cases hr
        · cases hr
        · next s1 h1 =>
          obtain ⟨H1, B1⟩ := resolveFace_ok _ _ B (by omega) h1
          exact resolve_ok prev l B1 C hr
    · split at hr
      · cases hr
      · next hlt =>
        rw [numFaces_eq C.fRem] at hlt
        split at hr
        · cases hr
        · cases hr
        · next s1 h1 =>
          obtain ⟨H1, B1⟩ := resolveFace_ok _ _ C (by omega) h1
          exact resolve_ok prev l B B1 hr

end Mcut.Partition
