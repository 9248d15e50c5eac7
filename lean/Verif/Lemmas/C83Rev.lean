import Verif.Lemmas.C81Rev
import Verif.Model.Stitch

/-! Lemmas for C83: the tables after the reversal of the patches. -/
namespace Mcut.Patches
open Mcut.Hmesh Mcut.Extract Mcut.Trace
variable {s0 s s' : Two}

theorem mem_reversed {p : List Nat} {h : Nat} : h ∈ reversed p ↔ opposite h ∈ p := by
  unfold reversed
  rw [List.mem_reverse, List.mem_map]
  constructor
  · rintro ⟨x, hx, rfl⟩; rw [opp_opp]; exact hx
  · intro hx; exact ⟨_, hx, opp_opp h⟩

theorem use_spec (k : Nat) : ∀ (p : List Nat) (U : Nat → List Nat) (h : Nat), ∃ r, use k U p h = U h ++ r ∧ ∀ j, j ∈ r ↔ j = k ∧ opposite h ∈ p := by
  intro p
  induction p with
  | nil => intro U h; exact ⟨[], by simp [use], by simp⟩
  | cons a p ih =>
    intro U h
    have e : use k U (a :: p) = use k (upd U (opposite a) (U (opposite a) ++ [k])) p := rfl
    obtain ⟨r, r1, r2⟩ := ih (upd U (opposite a) (U (opposite a) ++ [k])) h
    rw [e, r1]
    by_cases hh : h = opposite a
    · subst hh
      refine ⟨k :: r, by simp [upd], fun j => ?_⟩
      rw [List.mem_cons, r2, List.mem_cons, opp_opp]
      simp
      exact fun h _ => h
    · refine ⟨r, by simp [upd, hh], fun j => ?_⟩
      rw [r2, List.mem_cons]
      have : opposite h ≠ a := fun e => hh (by rw [← e, opp_opp])
      simp [this]

/-- The users of the halfedges: the new polygons come after the old ones. `acc` are the polygons of a patch that is being made. -/
structure RevTab (s0 s : Two) (cw : Nat) (acc : List Nat) : Prop where
  le : s0.polys.length ≤ s.polys.length
  users : ∀ h, ∃ r, s.users h = s0.users h ++ r ∧ ∀ j, j ∈ r ↔ s0.polys.length ≤ j ∧ ∃ q, s.polys[j]? = some q ∧ h ∈ q
  old : ∀ j, j < s0.polys.length → patchOf s.table j = patchOf s0.table j
  new : ∀ j, s0.polys.length ≤ j → j < s.polys.length → ∀ k, patchOf s.table j = some k ↔ (∃ l, s.patches[k]? = some l ∧ j ∈ l) ∨ k = cw ∧ j ∈ acc
  known : ∀ j, s0.polys.length ≤ j → j < s.polys.length → (patchOf s.table j).isSome
  lt : (∀ l ∈ s.patches, ∀ j ∈ l, j < s.polys.length) ∧ ∀ j ∈ acc, j < s.polys.length

theorem RevTab.poly {cw : Nat} {acc acc' : List Nat} {j : Nat} (R : RevTab s0 s cw acc) (h : reversePoly cw (s, acc) j = some (s', acc')) : RevTab s0 s' cw acc' ∧ s'.patches = s.patches := by
  unfold reversePoly at h
  cases hp : s.polys[j]? with
  | none => rw [hp] at h; cases h
  | some p =>
    rw [hp, Option.bind_some] at h
    cases hF : (if (s.faceOf s.polys.length).isSome then some s.faceOf else (s.faceOf j).map (fun f => upd s.faceOf s.polys.length (some f))) with
    | none => simp only [hF] at h; cases h
    | some F =>
      simp only [hF, Option.map_some, Option.some.injEq, Prod.mk.injEq] at h
      obtain ⟨rfl, rfl⟩ := h
      have hle := R.le
      refine ⟨⟨by simp; omega, ?_, ?_, ?_, ?_, ?_, ?_⟩, rfl⟩
      · intro x
        obtain ⟨r, r1, r2⟩ := R.users x
        obtain ⟨t, t1, t2⟩ := use_spec s.polys.length p s.users x
        refine ⟨r ++ t, by show use _ _ _ _ = _; rw [t1, r1, List.append_assoc], fun i => ?_⟩
        rw [List.mem_append, r2, t2]
        show _ ↔ _ ∧ ∃ q, (s.polys ++ [reversed p])[i]? = some q ∧ x ∈ q
        constructor
        · rintro (⟨h1, q, h2, h3⟩ | ⟨rfl, h2⟩)
          · exact ⟨h1, q, by rw [List.getElem?_append_left (List.getElem?_eq_some_iff.1 h2).1]; exact h2, h3⟩
          · exact ⟨hle, reversed p, by simp, mem_reversed.2 h2⟩
        · rintro ⟨h1, q, h2, h3⟩
          rcases Nat.lt_trichotomy i s.polys.length with h4 | h4 | h4
          · left; rw [List.getElem?_append_left h4] at h2; exact ⟨h1, q, h2, h3⟩
          · right
            subst h4
            simp at h2
            exact ⟨rfl, mem_reversed.1 (by rw [h2]; exact h3)⟩
          · rw [List.getElem?_eq_none (by simp; omega)] at h2; cases h2
      · intro i hi
        show patchOf ((s.polys.length, cw) :: s.table) i = _
        rw [← R.old i hi]
        unfold patchOf
        rw [List.find?_cons_of_neg (by simp; omega)]
      · intro i h1 h2 k
        show patchOf ((s.polys.length, cw) :: s.table) i = some k ↔ _
        simp only [List.length_append, List.length_singleton] at h2
        by_cases h3 : i = s.polys.length
        · subst h3
          unfold patchOf
          rw [List.find?_cons_of_pos (by simp)]
          simp only [Option.map_some, Option.some.injEq]
          constructor
          · rintro rfl; right; simp
          · rintro (⟨l, l1, l2⟩ | ⟨h3, -⟩)
            · have := R.lt.1 l (List.mem_of_getElem? l1) _ l2; omega
            · exact h3.symm
        · have e : patchOf ((s.polys.length, cw) :: s.table) i = patchOf s.table i := by
            unfold patchOf
            rw [List.find?_cons_of_neg (by simp; omega)]
          rw [e, R.new i h1 (by omega) k]
          simp [h3]
      · intro i h1 h2
        show (patchOf ((s.polys.length, cw) :: s.table) i).isSome
        simp only [List.length_append, List.length_singleton] at h2
        by_cases h3 : i = s.polys.length
        · subst h3
          unfold patchOf
          rw [List.find?_cons_of_pos (by simp)]; rfl
        · have e : patchOf ((s.polys.length, cw) :: s.table) i = patchOf s.table i := by
            unfold patchOf
            rw [List.find?_cons_of_neg (by simp; omega)]
          rw [e]; exact R.known i h1 (by omega)
      · intro l hl i hi
        have := R.lt.1 l hl i hi
        simp; omega
      · intro i hi
        rcases List.mem_append.1 hi with h1 | h1
        · have := R.lt.2 i h1; simp; omega
        · rw [List.mem_singleton] at h1; simp; omega

theorem RevTab.polys {cw : Nat} : ∀ (l : List Nat) (s : Two) (acc : List Nat), RevTab s0 s cw acc → ∀ s' acc', l.foldlM (reversePoly cw) (s, acc) = some (s', acc') → RevTab s0 s' cw acc' ∧ s'.patches = s.patches := by
  intro l
  induction l with
  | nil => intro s acc R s' acc' h; simp at h; obtain ⟨rfl, rfl⟩ := h; exact ⟨R, rfl⟩
  | cons j l ih =>
    intro s acc R s' acc' h
    rw [List.foldlM_cons] at h
    cases h1 : reversePoly cw (s, acc) j with
    | none => rw [h1] at h; cases h
    | some r =>
      obtain ⟨s1, acc1⟩ := r
      rw [h1] at h
      obtain ⟨R1, e1⟩ := R.poly h1
      obtain ⟨R2, e2⟩ := ih s1 acc1 R1 s' acc' h
      exact ⟨R2, e2.trans e1⟩

/-- The tables after the reversal. -/
theorem reverse_tables : ∀ (ks : List Nat) (s s' : Two), RevTab s0 s s.patches.length [] → ks.foldlM reversePatch s = some s' → RevTab s0 s' s'.patches.length [] := by
  intro ks
  induction ks with
  | nil => intro s s' R h; simp at h; subst h; exact R
  | cons k ks ih =>
    intro s s' R h
    rw [List.foldlM_cons] at h
    cases h1 : reversePatch s k with
    | none => rw [h1] at h; cases h
    | some s1 =>
      rw [h1] at h
      refine ih s1 s' ?_ h
      unfold reversePatch at h1
      cases hl : s.patches[k]? with
      | none => rw [hl] at h1; cases h1
      | some l =>
        rw [hl, Option.bind_some] at h1
        cases hr : l.foldlM (reversePoly s.patches.length) (s, []) with
        | none => rw [hr] at h1; cases h1
        | some r =>
          obtain ⟨s2, acc⟩ := r
          rw [hr] at h1
          simp only [Option.map_some, Option.some.injEq] at h1
          obtain ⟨R2, e2⟩ := RevTab.polys l s [] R s2 acc hr
          subst h1
          refine ⟨R2.le, R2.users, R2.old, ?_, R2.known, ?_, by simp⟩
          · intro j h1 h2 k'
            show patchOf s2.table j = some k' ↔ _
            rw [R2.new j h1 h2 k']
            show _ ↔ (∃ l, (s2.patches ++ [acc])[k']? = some l ∧ j ∈ l) ∨ _
            rw [e2]
            constructor
            · rintro (⟨l', l1, l2⟩ | ⟨rfl, h3⟩)
              · left; exact ⟨l', by rw [List.getElem?_append_left (List.getElem?_eq_some_iff.1 l1).1]; exact l1, l2⟩
              · left; exact ⟨acc, by simp, h3⟩
            · rintro (⟨l', l1, l2⟩ | ⟨-, h3⟩)
              · rcases Nat.lt_trichotomy k' s.patches.length with h4 | h4 | h4
                · rw [List.getElem?_append_left h4] at l1; left; exact ⟨l', l1, l2⟩
                · subst h4; simp at l1; right; exact ⟨rfl, by rw [l1]; exact l2⟩
                · rw [List.getElem?_eq_none (by simp; omega)] at l1; cases l1
              · cases h3
          · intro l' hl' j hj
            rcases List.mem_append.1 hl' with h3 | h3
            · exact R2.lt.1 l' h3 j hj
            · rw [List.mem_singleton] at h3; subst h3; exact R2.lt.2 j hj

theorem reverseAll_tables {red blue : List Nat} (hlt : ∀ l ∈ s0.patches, ∀ j ∈ l, j < s0.polys.length) (h : reverseAll s0 red blue = some s) :
    (∀ x, ∃ r, s.users x = s0.users x ++ r ∧ ∀ j, j ∈ r ↔ s0.polys.length ≤ j ∧ ∃ q, s.polys[j]? = some q ∧ x ∈ q) ∧ (∀ j, j < s0.polys.length → patchOf s.table j = patchOf s0.table j) ∧
      (∀ j, s0.polys.length ≤ j → j < s.polys.length → ∀ k, patchOf s.table j = some k ↔ ∃ l, s.patches[k]? = some l ∧ j ∈ l) ∧
      ∀ j, s0.polys.length ≤ j → j < s.polys.length → (patchOf s.table j).isSome := by
  have R := reverse_tables (s0 := s0) (red ++ blue) s0 s ⟨Nat.le_refl _, fun x => ⟨[], by simp, fun j => ⟨fun h => (by cases h), fun ⟨h1, q, h2, _⟩ => by
    have := (List.getElem?_eq_some_iff.1 h2).1; omega⟩⟩, fun _ _ => rfl, fun j h1 h2 => by omega, fun j h1 h2 => by omega, hlt, by simp⟩ h
  exact ⟨R.users, R.old, fun j h1 h2 k => by simpa using R.new j h1 h2 k, R.known⟩

end Mcut.Patches
