import Verif.Spec.C61
import Verif.Props.C29
import Verif.Props.C17
import Mathlib.Tactic.Tauto

/-! Lemmas for C61. -/
namespace Mcut.Pairs
open Mcut.Hmesh Mcut.Box Mcut.Sched
variable {P : Type}

theorem upd_apply {α : Type} (f : Nat → α) (i j : Nat) (x : α) : upd f i x j = if j = i then x else f j := rfl

theorem sortIds_sorted {l : List Nat} (h : l.Nodup) : (sortIds l).Pairwise (· < ·) := by
  have h1 : (sortIds l).Pairwise (· ≤ ·) := List.pairwise_insertionSort _ _
  have h2 : (sortIds l).Nodup := (List.perm_insertionSort _ l).nodup_iff.2 h
  exact (h1.and h2).imp (fun ⟨a, b⟩ => Nat.lt_of_le_of_ne a b)

theorem mem_sortIds {l : List Nat} {x : Nat} : x ∈ sortIds l ↔ x ∈ l := List.mem_insertionSort _

theorem insertId_spec (x : Nat) {l : List Nat} (h : l.Pairwise (· < ·)) :
    (insertId x l).Pairwise (· < ·) ∧ ∀ y, y ∈ insertId x l ↔ y = x ∨ y ∈ l := by
  induction l with
  | nil => simp [insertId]
  | cons a l ih =>
    have ih := ih (List.pairwise_cons.1 h).2
    have ha := (List.pairwise_cons.1 h).1
    unfold insertId at ih ⊢
    by_cases hlt : a < x
    · simp only [List.takeWhile_cons, List.dropWhile_cons, hlt, decide_true, if_true] at ih ⊢
      split_ifs at ih ⊢ with hx
      · refine ⟨h, fun y => ?_⟩
        have : x ∈ l := by
          have := List.mem_of_mem_head? hx
          exact (List.dropWhile_sublist _).subset this
        grind
      · refine ⟨?_, fun y => ?_⟩
        · rw [List.cons_append, List.pairwise_cons]
          refine ⟨fun y hy => ?_, ih.1⟩
          rcases (ih.2 y).1 hy with rfl | hy
          · exact hlt
          · exact ha y hy
        · rw [List.cons_append, List.mem_cons, ih.2]; grind
    · simp only [List.takeWhile_cons, List.dropWhile_cons, hlt, decide_false, List.head?_cons, Option.some.injEq, Bool.false_eq_true, if_false]
      by_cases e : a = x
      · subst e; rw [if_pos rfl]; exact ⟨h, fun y => by grind⟩
      · rw [if_neg e]
        refine ⟨?_, fun y => by grind⟩
        rw [List.nil_append, List.pairwise_cons]
        refine ⟨fun y hy => ?_, h⟩
        rcases List.mem_cons.1 hy with rfl | hy
        · omega
        · have := ha y hy; omega

theorem insertAll_spec (L : List Nat) : ∀ {l : List Nat}, l.Pairwise (· < ·) →
    (L.foldl (fun l g => insertId g l) l).Pairwise (· < ·) ∧ ∀ y, y ∈ L.foldl (fun l g => insertId g l) l ↔ y ∈ L ∨ y ∈ l := by
  induction L with
  | nil => intro l h; exact ⟨h, fun y => by simp⟩
  | cons x L ih =>
    intro l h
    obtain ⟨h1, h2⟩ := insertId_spec x h
    obtain ⟨h3, h4⟩ := ih h1
    refine ⟨h3, fun y => ?_⟩
    rw [List.foldl_cons, h4, h2]; simp only [List.mem_cons]; tauto

/-- Sorted lists with the same members are equal. -/
theorem sorted_ext : ∀ {a b : List Nat}, a.Pairwise (· < ·) → b.Pairwise (· < ·) → (∀ x, x ∈ a ↔ x ∈ b) → a = b := by
  intro a b ha hb h
  have na : a.Nodup := ha.imp (fun h => Nat.ne_of_lt h)
  have nb : b.Nodup := hb.imp (fun h => Nat.ne_of_lt h)
  have p : a.Perm b := (List.perm_ext_iff_of_nodup na nb).2 h
  exact p.eq_of_pairwise (fun x y _ _ h1 h2 => by omega) (ha.imp (fun h => h)) (hb.imp (fun h => h))

/-- `M` has entries at the touched edges `T`, with the faces `D`. -/
structure Cand (T : Nat → Prop) (D : Nat → Nat → Prop) (M : EdgeMap) : Prop where
  dom : ∀ e g, D e g → T e
  keys : ∀ e, (M e).isSome ↔ T e
  sorted : ∀ e l, M e = some l → l.Pairwise (· < ·)
  faces : ∀ e l, M e = some l → ∀ g, g ∈ l ↔ D e g

theorem Cand.none : Cand (fun _ => False) (fun _ _ => False) (fun _ => Option.none) :=
  ⟨fun _ _ h => h, fun e => by simp, fun e l h => by simp at h, fun e l h => by simp at h⟩

theorem Cand.congr {T T' : Nat → Prop} {D D' : Nat → Nat → Prop} {M : EdgeMap} (C : Cand T D M) (hT : ∀ e, T e ↔ T' e) (hD : ∀ e g, D e g ↔ D' e g) :
    Cand T' D' M :=
  ⟨fun e g h => (hT e).1 (C.dom e g ((hD e g).2 h)), fun e => (C.keys e).trans (hT e), C.sorted, fun e l h g => (C.faces e l h g).trans (hD e g)⟩

/-- Setting an entry. -/
theorem Cand.set {T : Nat → Prop} {D : Nat → Nat → Prop} {M : EdgeMap} (C : Cand T D M) (e0 : Nat) (L l : List Nat) (hl : l.Pairwise (· < ·))
    (hm : ∀ g, g ∈ l ↔ D e0 g ∨ g ∈ L) :
    Cand (fun e => T e ∨ e = e0) (fun e g => D e g ∨ (e = e0 ∧ g ∈ L)) (upd M e0 (some l)) := by
  refine ⟨fun e g h => ?_, fun e => ?_, fun e l' h => ?_, fun e l' h g => ?_⟩
  · rcases h with h | h
    · exact .inl (C.dom e g h)
    · exact .inr h.1
  · rw [upd_apply]; split_ifs with h
    · simp [h]
    · rw [C.keys]; simp [h]
  · rw [upd_apply] at h; split_ifs at h with h'
    · cases h; exact hl
    · exact C.sorted e l' h
  · rw [upd_apply] at h; split_ifs at h with h'
    · cases h; rw [hm, h']; simp
    · rw [C.faces e l' h]; simp [h']

theorem Cand.noFaces {T : Nat → Prop} {D : Nat → Nat → Prop} {M : EdgeMap} (C : Cand T D M) {e : Nat} (h : M e = Option.none) (g : Nat) : ¬ D e g := by
  intro hd
  have := (C.keys e).2 (C.dom e g hd)
  rw [h] at this; simp at this

theorem Cand.addHalfedge {T : Nat → Prop} {D : Nat → Nat → Prop} {M : EdgeMap} (C : Cand T D M) {L : List Nat} (hL : L.Nodup) (h : Nat) :
    Cand (fun e => T e ∨ e = edgeOf h) (fun e g => D e g ∨ (e = edgeOf h ∧ g ∈ L)) (addHalfedge L M h) := by
  unfold Pairs.addHalfedge
  split
  · next hm => exact C.set _ L _ (sortIds_sorted hL) (fun g => by rw [mem_sortIds]; have := C.noFaces hm g; tauto)
  · next hm =>
    exact C.set _ L _ (sortIds_sorted hL) (fun g => by
      rw [mem_sortIds]; have := (C.faces _ _ hm g); simp only [List.not_mem_nil, false_iff] at this; tauto)
  · next l hn hm =>
    obtain ⟨h1, h2⟩ := insertAll_spec L (C.sorted _ _ hm)
    exact C.set _ L _ h1 (fun g => by rw [h2, C.faces _ _ hm]; tauto)

theorem Cand.addAll {L : List Nat} (hL : L.Nodup) (hs : List Nat) : ∀ {T : Nat → Prop} {D : Nat → Nat → Prop} {M : EdgeMap}, Cand T D M →
    Cand (fun e => T e ∨ ∃ h ∈ hs, edgeOf h = e) (fun e g => D e g ∨ ((∃ h ∈ hs, edgeOf h = e) ∧ g ∈ L)) (hs.foldl (Pairs.addHalfedge L) M) := by
  induction hs with
  | nil => intro T D M C; exact C.congr (fun e => by simp) (fun e g => by simp)
  | cons h hs ih =>
    intro T D M C
    refine (ih (C.addHalfedge hL h)).congr (fun e => ?_) (fun e g => ?_)
    · simp only [List.mem_cons, exists_eq_or_imp]; constructor <;> grind
    · simp only [List.mem_cons, exists_eq_or_imp]; constructor <;> grind

/-- The entries for a list of faces with their candidates. -/
def Tof (ps : Mesh P) (pairs : FaceMap) (e : Nat) : Prop := ∃ kv ∈ pairs, OnFace ps e kv.1
def Dof (ps : Mesh P) (pairs : FaceMap) (e g : Nat) : Prop := ∃ kv ∈ pairs, OnFace ps e kv.1 ∧ g ∈ kv.2

theorem Cand.edgeMapOf {ps : Mesh P} {pairs : FaceMap} {M : EdgeMap} (C : Cand (Tof ps pairs) (Dof ps pairs) M) : EdgeMapOf ps pairs M :=
  ⟨C.keys, C.sorted, C.faces⟩

theorem edgeMapOf_unique {ps : Mesh P} {pairs : FaceMap} {M M' : EdgeMap} (A : EdgeMapOf ps pairs M) (B : EdgeMapOf ps pairs M') : M = M' := by
  funext e
  have h := (A.keys e).trans (B.keys e).symm
  cases hm : M e with
  | none =>
    cases hm' : M' e with
    | none => rfl
    | some l => rw [hm, hm'] at h; simp at h
  | some l =>
    cases hm' : M' e with
    | none => rw [hm, hm'] at h; simp at h
    | some l' => rw [sorted_ext (A.sorted e l hm) (B.sorted e l' hm') (fun g => (A.faces e l hm g).trans (B.faces e l' hm' g).symm)]

theorem block_spec (ps : Mesh P) (pairs : FaceMap) (hn : ∀ kv ∈ pairs, kv.2.Nodup) : Cand (Tof ps pairs) (Dof ps pairs) (block ps pairs) := by
  have key : ∀ (l : FaceMap), (∀ kv ∈ l, kv.2.Nodup) → ∀ {T : Nat → Prop} {D : Nat → Nat → Prop} {M : EdgeMap}, Cand T D M →
      Cand (fun e => T e ∨ Tof ps l e) (fun e g => D e g ∨ Dof ps l e g) (l.foldl (fun M kv => (ps.fh kv.1).foldl (addHalfedge kv.2) M) M) := by
    intro l
    induction l with
    | nil => intro _ T D M C; exact C.congr (fun e => by simp [Tof]) (fun e g => by simp [Dof])
    | cons kv l ih =>
      intro hl T D M C
      refine (ih (fun q hq => hl q (by simp [hq])) (Cand.addAll (hl kv (by simp)) (ps.fh kv.1) C)).congr (fun e => ?_) (fun e g => ?_)
      · unfold Tof OnFace; simp only [List.mem_cons, exists_eq_or_imp]; exact or_assoc
      · unfold Dof OnFace; simp only [List.mem_cons, exists_eq_or_imp]; exact or_assoc
  exact (key pairs hn Cand.none).congr (fun e => by simp) (fun e g => by simp)

theorem merge_spec {T T' : Nat → Prop} {D D' : Nat → Nat → Prop} {A B : EdgeMap} (a : Cand T D A) (b : Cand T' D' B) :
    Cand (fun e => T e ∨ T' e) (fun e g => D e g ∨ D' e g) (mergeMaps A B) := by
  refine ⟨fun e g h => h.imp (a.dom e g) (b.dom e g), fun e => ?_, fun e l h => ?_, fun e l h g => ?_⟩
  · rw [← a.keys, ← b.keys]; unfold mergeMaps; cases A e <;> cases B e <;> simp
  · unfold mergeMaps at h
    cases hb : B e with
    | none => rw [hb] at h; exact a.sorted e l h
    | some lb =>
      cases ha : A e with
      | none => rw [hb, ha] at h; cases h; exact b.sorted e _ hb
      | some la => rw [hb, ha] at h; cases h; exact (insertAll_spec lb (a.sorted e la ha)).1
  · unfold mergeMaps at h
    cases hb : B e with
    | none => rw [hb] at h; rw [a.faces e l h]; have := b.noFaces hb g; tauto
    | some lb =>
      cases ha : A e with
      | none => rw [hb, ha] at h; cases h; rw [b.faces e _ hb]; have := a.noFaces ha g; tauto
      | some la =>
        rw [hb, ha] at h; cases h
        rw [(insertAll_spec lb (a.sorted e la ha)).2, a.faces e la ha, b.faces e lb hb]; tauto

theorem slice_of_range' (l : List α) (a n : Nat) : (l.drop a).take n = (List.range' a n).filterMap (fun i => l[i]?) := by
  induction n generalizing a with
  | zero => simp
  | succ n ih =>
    rw [List.range'_succ, List.filterMap_cons]
    by_cases h : a < l.length
    · rw [List.getElem?_eq_getElem h, List.drop_eq_getElem_cons h]; simp only [List.take_succ_cons, ih]
    · rw [List.getElem?_eq_none (by omega), List.drop_eq_nil_of_le (by omega)]
      have := ih (a + 1)
      rw [List.drop_eq_nil_of_le (by omega)] at this
      simpa using this

theorem slices_flatten (l : List α) (bs : List (Nat × Nat)) (h : bs.flatMap (fun b => List.range' b.1 (b.2 - b.1)) = List.range l.length) :
    bs.flatMap (fun b => (l.drop b.1).take (b.2 - b.1)) = l := by
  have : bs.flatMap (fun b => (l.drop b.1).take (b.2 - b.1)) = (bs.flatMap (fun b => List.range' b.1 (b.2 - b.1))).filterMap (fun i => l[i]?) := by
    rw [List.filterMap_flatMap]; congr 1; funext b; exact slice_of_range' _ _ _
  rw [this, h]
  have := slice_of_range' l 0 l.length
  rw [List.range_eq_range', ← this]; simp

end Mcut.Pairs
