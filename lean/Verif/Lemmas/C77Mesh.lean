import Verif.Model.Split
import Verif.Lemmas.C70
import Verif.Lemmas.C71Outline
import Verif.Lemmas.C66

/-! Lemmas for C77: meshes of vertices and edges without removed elements; the copies of the edges without intersection points. -/
namespace Mcut.Split
open Mcut.Hmesh Mcut.Extract
open Mcut.Trace (src src_of)
variable {P : Type} {d : P}

/-- A mesh of vertices and edges, from which nothing has been removed. -/
structure Plain (d : P) (m : Mesh P) : Prop where
  reach : Reachable d m
  vRem : m.vRem = []
  eRem : m.eRem = []
  nF : m.nF = 0
  fRem : m.fRem = []

theorem Plain.liveH {m : Mesh P} (p : Plain d m) (h : Nat) : LiveH m h ↔ edgeOf h < m.nE := by
  rw [(reachable_wf p.reach).liveH_iff]
  unfold LiveE Live edgeOf; rw [p.eRem]; simp

theorem Plain.ends {m : Mesh P} (p : Plain d m) {h : Nat} (hl : edgeOf h < m.nE) : src m h = m.target (opposite h) ∧ src m h ≠ m.target h ∧ src m (opposite h) = m.target h ∧
    m.target h < m.nV ∧ src m h < m.nV := by
  obtain ⟨h1, h2, h3, h4, h5⟩ := src_of p.reach ((p.liveH h).2 hl)
  have a := ((C29_consistent p.reach).opp h ((p.liveH h).2 hl)).2.2.2.2.2.2.1
  have b := ((C29_consistent p.reach).opp _ h5).2.2.2.2.2.2.1
  exact ⟨h1, h2, h3, a.1, by rw [h1]; exact b.1⟩

theorem edgeOf_opposite (h : Nat) : edgeOf (opposite h) = edgeOf h := by unfold edgeOf opposite; split <;> omega

theorem opposite_opposite (h : Nat) : opposite (opposite h) = h := by unfold opposite; split <;> split <;> omega

theorem opposite_ne (h : Nat) : opposite h ≠ h := by unfold opposite; split <;> omega

theorem Plain.addEdge {m : Mesh P} (p : Plain d m) {a b : Nat} (ha : a < m.nV) (hb : b < m.nV) (hne : a ≠ b) :
    (m.addEdge a b).2 = 2 * m.nE ∧ Plain d (m.addEdge a b).1 ∧ (m.addEdge a b).1.nV = m.nV ∧ (m.addEdge a b).1.pos = m.pos ∧ (m.addEdge a b).1.nE = m.nE + 1 ∧
    (∀ h, edgeOf h < m.nE → (m.addEdge a b).1.target h = m.target h ∧ src (m.addEdge a b).1 h = src m h) ∧
    src (m.addEdge a b).1 (2 * m.nE) = a ∧ (m.addEdge a b).1.target (2 * m.nE) = b ∧ src (m.addEdge a b).1 (opposite (2 * m.nE)) = b ∧ (m.addEdge a b).1.target (opposite (2 * m.nE)) = a := by
  have W := reachable_wf p.reach
  obtain ⟨a1, E⟩ := addEdge_spec W a b hne
  have hnew : newEdge m = m.nE := by unfold newEdge; rw [p.eRem]; rfl
  rw [hnew] at a1 E
  have hr' : Reachable d (m.addEdge a b).1 := .step m (.addEdge a b) p.reach ⟨⟨ha, by rw [p.vRem]; simp⟩, ⟨hb, by rw [p.vRem]; simp⟩, hne⟩
  have eRem' : (m.addEdge a b).1.eRem = [] := by unfold Mesh.addEdge Mesh.allocHalfedge Mesh.allocEdge; grind [p.eRem]
  generalize (m.addEdge a b).1 = me at *
  have nE' : me.nE = m.nE + 1 := by
    have h2 : ∀ x, x < me.nE ↔ x < m.nE ∨ x = m.nE := by
      intro x
      have := E.live x
      unfold LiveE Live at this
      rw [eRem', p.eRem] at this
      simpa using this
    have ha := h2 (m.nE + 1)
    have hb := h2 m.nE
    omega
  have p' : Plain d me := ⟨hr', by rw [E.vRem]; exact p.vRem, eRem', by rw [E.nF]; exact p.nF, by rw [E.fRem]; exact p.fRem⟩
  have old : ∀ h, edgeOf h < m.nE → me.target h = m.target h := by
    intro h hh
    unfold Mesh.target
    rw [E.hd h (by unfold edgeOf at hh; omega)]
  have ho : opposite (2 * m.nE) = 2 * m.nE + 1 := by unfold opposite; rw [if_pos (by omega)]
  have t0 : me.target (2 * m.nE) = b := by unfold Mesh.target; rw [E.hd0]
  have t1 : me.target (2 * m.nE + 1) = a := by unfold Mesh.target; rw [E.hd1]
  have e0 : edgeOf (2 * m.nE) < me.nE := by unfold edgeOf; omega
  refine ⟨a1, p', E.nV, E.pos, nE', fun h hh => ⟨old h hh, ?_⟩, ?_, t0, ?_, ?_⟩
  · rw [(p'.ends (h := h) (by omega)).1, (p.ends hh).1]
    exact old _ (by rw [edgeOf_opposite]; exact hh)
  · rw [(p'.ends e0).1, ho]; exact t1
  · rw [(p'.ends e0).2.2.1]; exact t0
  · rw [ho]; exact t1

theorem Plain.addVertex {m : Mesh P} (p : Plain d m) (x : P) :
    (m.addVertex x).2 = m.nV ∧ Plain d (m.addVertex x).1 ∧ (m.addVertex x).1.nV = m.nV + 1 ∧ (m.addVertex x).1.pos m.nV = x ∧ (∀ v, v < m.nV → (m.addVertex x).1.pos v = m.pos v) ∧
    (m.addVertex x).1.nE = m.nE ∧ (∀ h, (m.addVertex x).1.target h = m.target h ∧ src (m.addVertex x).1 h = src m h) := by
  have W := reachable_wf p.reach
  obtain ⟨a1, A⟩ := addVertex_spec W x
  have hnew : newVertex m = m.nV := by unfold newVertex; rw [p.vRem]; rfl
  rw [hnew] at a1 A
  have hr' : Reachable d (m.addVertex x).1 := .step m (.addVertex x) p.reach trivial
  obtain ⟨o1, o2, o3, o4, o5, o6, o7, o8⟩ := A.others
  refine ⟨a1, ⟨hr', by rw [A.vRem, p.vRem]; rfl, by rw [o4]; exact p.eRem, by rw [o3]; exact p.nF, by rw [o6]; exact p.fRem⟩, by rw [A.nV, if_pos p.vRem], A.pos,
    fun v hv => A.pos_old v ⟨hv, by rw [p.vRem]; simp⟩, o1, fun h => ⟨by unfold Mesh.target; rw [o7], by unfold src Mesh.source; rw [o7]⟩⟩

theorem plain_of_bare {m : Mesh P} {n : Nat} (B : CutEdges.Bare d m n) : Plain d m := ⟨B.reach, B.vRem, B.eRem, B.nF, B.fRem⟩

/-- "m1" with copies of the vertices of "m0": see `copyVertices_spec`. -/
structure Copied (d : P) (m0 m1 : Mesh P) : Prop where
  plain : Plain d m1
  nV : m1.nV = m0.nV
  pos : ∀ v, v < m0.nV → m1.pos v = m0.pos v

/-- The copies of the edges `es` of "m0" without intersection points. -/
structure Edges (d : P) (m0 : Mesh P) (base : Nat) (es : List Nat) (m1 : Mesh P) (he : Nat → Option Nat) : Prop where
  copied : Copied d m0 m1
  got : ∀ h, edgeOf h ∈ es → src m0 h < base → m0.target h < base → ∃ k, he h = some k
  ends : ∀ h k, he h = some k → edgeOf k < m1.nE ∧ src m1 k = src m0 h ∧ m1.target k = m0.target h ∧ he (opposite h) = some (opposite k) ∧ edgeOf h ∈ es ∧ src m0 h < base ∧ m0.target h < base
  one : ∀ h k h' k', he h = some k → he h' = some k' → edgeOf k = edgeOf k' → edgeOf h = edgeOf h'
  all : ∀ k, edgeOf k < m1.nE → ∃ h, he h = some k

theorem half_cases (h : Nat) : h = halfedgeOf (edgeOf h) 0 ∨ h = halfedgeOf (edgeOf h) 1 := by unfold halfedgeOf edgeOf; omega

theorem opp0 (e : Nat) : opposite (halfedgeOf e 0) = halfedgeOf e 1 := by unfold opposite halfedgeOf; split <;> omega
theorem opp1 (e : Nat) : opposite (halfedgeOf e 1) = halfedgeOf e 0 := by unfold opposite halfedgeOf; split <;> omega
theorem edge0 (e : Nat) : edgeOf (halfedgeOf e 0) = e := by unfold edgeOf halfedgeOf; omega
theorem edge1 (e : Nat) : edgeOf (halfedgeOf e 1) = e := by unfold edgeOf halfedgeOf; omega

theorem copyEdge_spec {m0 : Mesh P} {base : Nat} (p0 : Plain d m0) (hb : base ≤ m0.nV) {es : List Nat} {s : Mesh P × (Nat → Option Nat)} (S : Edges d m0 base es s.1 s.2) {e : Nat}
    (he : e < m0.nE) (hn : e ∉ es) : Edges d m0 base (es ++ [e]) (copyEdge m0 base s e).1 (copyEdge m0 base s e).2 := by
  have hl0 : edgeOf (halfedgeOf e 0) < m0.nE := by rw [edge0]; exact he
  have hv0 : m0.edgeVertex e 0 = m0.target (halfedgeOf e 0) := rfl
  have hv1 : m0.edgeVertex e 1 = m0.target (halfedgeOf e 1) := rfl
  obtain ⟨f1, f2, f3, f4, f5⟩ := p0.ends hl0
  rw [opp0] at f1 f3
  have src1 : src m0 (halfedgeOf e 1) = m0.target (halfedgeOf e 0) := f3
  unfold copyEdge
  simp only
  by_cases hc : m0.edgeVertex e 0 < base ∧ m0.edgeVertex e 1 < base
  · rw [if_pos hc]
    obtain ⟨a1, a2, a3, a4, a5, a6, a7, a8, a9, a10⟩ := S.copied.plain.addEdge (a := m0.edgeVertex e 0) (b := m0.edgeVertex e 1) (by rw [S.copied.nV]; omega) (by rw [S.copied.nV]; omega)
      (by rw [hv0, hv1, ← f1]; exact Ne.symm f2)
    generalize (s.1.addEdge (m0.edgeVertex e 0) (m0.edgeVertex e 1)).1 = me at *
    generalize (s.1.addEdge (m0.edgeVertex e 0) (m0.edgeVertex e 1)).2 = g at *
    subst a1
    have hg0 : ¬ src m0 (halfedgeOf e 0) = src me (2 * s.1.nE) := by rw [a7, hv0]; exact f2
    rw [if_neg hg0, opposite_opposite]
    have nk : ∀ h, edgeOf h ∈ es → h ≠ halfedgeOf e 0 ∧ h ≠ halfedgeOf e 1 := by
      intro h hh
      exact ⟨fun e' => hn (by rw [e', edge0] at hh; exact hh), fun e' => hn (by rw [e', edge1] at hh; exact hh)⟩
    have key : ∀ h k, s.2 h = some k → h ≠ halfedgeOf e 0 ∧ h ≠ halfedgeOf e 1 := fun h k hk => nk h (S.ends h k hk).2.2.2.2.1
    have e01 : halfedgeOf e 1 ≠ halfedgeOf e 0 := by unfold halfedgeOf; omega
    have ek : edgeOf (2 * s.1.nE) = s.1.nE := by unfold edgeOf; omega
    refine ⟨⟨a2, by rw [a3]; exact S.copied.nV, fun v hv => by rw [a4]; exact S.copied.pos v hv⟩, ?_, ?_, ?_, ?_⟩
    · intro h hh h1 h2
      dsimp only
      split
      · exact ⟨_, rfl⟩
      · split
        · exact ⟨_, rfl⟩
        · rename_i n0 n1
          rcases List.mem_append.1 hh with h' | h'
          · exact S.got h h' h1 h2
          · rw [List.mem_singleton] at h'
            rcases half_cases h with h'' | h'' <;> rw [h'] at h'' <;> contradiction
    · intro h k hk
      dsimp only at hk ⊢
      by_cases c0 : h = halfedgeOf e 0
      · subst c0
        rw [if_pos rfl] at hk
        obtain rfl := Option.some.inj hk
        rw [opp0, if_neg e01, if_pos rfl, opposite_opposite, edgeOf_opposite, ek, edge0, a9, a10]
        exact ⟨by omega, by rw [f1, hv1], hv0, rfl, by simp, by rw [f1, ← hv1]; exact hc.2, by rw [← hv0]; exact hc.1⟩
      · rw [if_neg c0] at hk
        by_cases c1 : h = halfedgeOf e 1
        · subst c1
          rw [if_pos rfl] at hk
          obtain rfl := Option.some.inj hk
          rw [opp1, if_pos rfl, ek, edge1, a7, a8]
          exact ⟨by omega, by rw [src1, hv0], hv1, rfl, by simp, by rw [src1, ← hv0]; exact hc.1, by rw [← hv1]; exact hc.2⟩
        · rw [if_neg c1] at hk
          obtain ⟨b1, b2, b3, b4, b5, b6, b7⟩ := S.ends h k hk
          have b8 := key _ _ b4
          rw [if_neg b8.1, if_neg b8.2, (a6 k b1).1, (a6 k b1).2]
          exact ⟨by omega, b2, b3, b4, List.mem_append_left _ b5, b6, b7⟩
    · intro h k h' k' hk hk' hkk
      dsimp only at hk hk'
      have low : ∀ h k, s.2 h = some k → edgeOf k ≠ s.1.nE := fun h k hk => by have := (S.ends h k hk).1; omega
      have new : ∀ {h k : Nat}, (if h = halfedgeOf e 0 then some (opposite (2 * s.1.nE)) else if h = halfedgeOf e 1 then some (2 * s.1.nE) else s.2 h) = some k →
          (edgeOf h = e ∧ edgeOf k = s.1.nE) ∨ s.2 h = some k := by
        intro h k hk
        split at hk
        · left; rename_i c0; obtain rfl := Option.some.inj hk; rw [c0, edge0, edgeOf_opposite, ek]; exact ⟨rfl, rfl⟩
        · split at hk
          · left; rename_i c0; obtain rfl := Option.some.inj hk; rw [c0, edge1, ek]; exact ⟨rfl, rfl⟩
          · right; exact hk
      rcases new hk with ⟨n1, n2⟩ | n1 <;> rcases new hk' with ⟨n3, n4⟩ | n3
      · rw [n1, n3]
      · exact absurd (by rw [← hkk]; exact n2) (low _ _ n3)
      · exact absurd (by rw [hkk]; exact n4) (low _ _ n1)
      · exact S.one _ _ _ _ n1 n3 hkk
    · intro k hk
      rw [a5] at hk
      by_cases hk' : edgeOf k = s.1.nE
      · rcases half_cases k with h' | h' <;> rw [hk'] at h'
        · refine ⟨halfedgeOf e 1, ?_⟩
          dsimp only
          rw [if_neg e01, if_pos rfl, h']
          unfold halfedgeOf; congr 1; omega
        · refine ⟨halfedgeOf e 0, ?_⟩
          dsimp only
          rw [if_pos rfl, h']
          unfold halfedgeOf opposite; rw [if_pos (by omega)]; congr 1; omega
      · obtain ⟨h, hh⟩ := S.all k (by omega)
        refine ⟨h, ?_⟩
        dsimp only
        rw [if_neg (key h k hh).1, if_neg (key h k hh).2]; exact hh
  · rw [if_neg hc]
    refine ⟨S.copied, ?_, ?_, S.one, S.all⟩
    · intro h hh h1 h2
      rcases List.mem_append.1 hh with h' | h'
      · exact S.got h h' h1 h2
      · rw [List.mem_singleton] at h'
        rcases half_cases h with h'' | h'' <;> rw [h'] at h'' <;> rw [h''] at h1 h2
        · exact absurd ⟨h2, by rw [hv1, ← f1]; exact h1⟩ hc
        · exact absurd ⟨by rw [hv0, ← src1]; exact h1, h2⟩ hc
    · intro h k hk
      obtain ⟨b1, b2, b3, b4, b5, b6⟩ := S.ends h k hk
      exact ⟨b1, b2, b3, b4, List.mem_append_left _ b5, b6⟩

theorem copyEdges_fold {m0 : Mesh P} {base : Nat} (p0 : Plain d m0) (hb : base ≤ m0.nV) : ∀ (l es : List Nat) (s : Mesh P × (Nat → Option Nat)), Edges d m0 base es s.1 s.2 →
    (es ++ l).Nodup → (∀ e ∈ l, e < m0.nE) → Edges d m0 base (es ++ l) (l.foldl (copyEdge m0 base) s).1 (l.foldl (copyEdge m0 base) s).2 := by
  intro l
  induction l with
  | nil => intro es s S _ _; simpa using S
  | cons e l ih =>
    intro es s S hnd hl
    rw [List.foldl_cons]
    have := ih (es ++ [e]) _ (copyEdge_spec p0 hb S (hl e List.mem_cons_self) ?_) (by simpa using hnd) (fun x hx => hl x (List.mem_cons_of_mem _ hx))
    · simpa using this
    · intro he
      rw [List.nodup_append] at hnd
      exact hnd.2.2 e he e List.mem_cons_self rfl

end Mcut.Split
