import Verif.Spec.C63
import Mathlib.Data.List.Basic

/-! Lemmas for `Props/C63.lean`. -/
namespace Mcut.Registry
open Mcut.Hmesh
variable {P : Type}

theorem Lists.nil (base : Nat) (p : Nat → Nat → Prop) : Lists base [] p [] := ⟨List.Pairwise.nil, fun v => by simp⟩

theorem Lists.range {base : Nat} {reg : List (Nat × Nat)} {p : Nat → Nat → Prop} {l : List Nat} (h : Lists base reg p l) {v : Nat} (hv : v ∈ l) :
    base ≤ v ∧ v < base + reg.length := by
  obtain ⟨i, e, f, rfl, hr, _⟩ := (h.2 v).1 hv
  have := (List.getElem?_eq_some_iff.1 hr).1
  omega

theorem Lists.shift {b : Nat} {reg : List (Nat × Nat)} {p : Nat → Nat → Prop} {l : List Nat} (h : Lists 0 reg p l) : Lists b reg p (l.map (b + ·)) := by
  refine ⟨?_, fun v => ?_⟩
  · rw [List.pairwise_map]; exact h.1.imp (fun hab => by omega)
  · rw [List.mem_map]
    constructor
    · rintro ⟨x, hx, rfl⟩
      obtain ⟨i, e, f, rfl, hr⟩ := (h.2 x).1 hx
      exact ⟨i, e, f, by omega, hr⟩
    · rintro ⟨i, e, f, rfl, hr⟩
      exact ⟨i, (h.2 i).2 ⟨i, e, f, by omega, hr⟩, rfl⟩

theorem Lists.append {base : Nat} {r1 r2 : List (Nat × Nat)} {p : Nat → Nat → Prop} {l1 l2 : List Nat} (h1 : Lists base r1 p l1) (h2 : Lists 0 r2 p l2) :
    Lists base (r1 ++ r2) p (l1 ++ l2.map (base + r1.length + ·)) := by
  refine ⟨?_, fun v => ?_⟩
  · rw [List.pairwise_append]
    refine ⟨h1.1, ?_, fun a ha b hb => ?_⟩
    · rw [List.pairwise_map]; exact h2.1.imp (fun hab => by omega)
    · obtain ⟨x, _, rfl⟩ := List.mem_map.1 hb
      have := (h1.range ha).2
      omega
  · rw [List.mem_append, List.mem_map]
    constructor
    · rintro (h | ⟨x, hx, rfl⟩)
      · obtain ⟨i, e, f, rfl, hr, hp⟩ := (h1.2 v).1 h
        refine ⟨i, e, f, rfl, ?_, hp⟩
        rw [List.getElem?_append_left (List.getElem?_eq_some_iff.1 hr).1]; exact hr
      · obtain ⟨i, e, f, rfl, hr, hp⟩ := (h2.2 x).1 hx
        refine ⟨r1.length + i, e, f, by omega, ?_, hp⟩
        rw [List.getElem?_append_right (by omega), Nat.add_sub_cancel_left]; exact hr
    · rintro ⟨i, e, f, rfl, hr, hp⟩
      by_cases hi : i < r1.length
      · rw [List.getElem?_append_left hi] at hr
        exact .inl ((h1.2 _).2 ⟨i, e, f, rfl, hr, hp⟩)
      · rw [List.getElem?_append_right (by omega)] at hr
        exact .inr ⟨i - r1.length, (h2.2 _).2 ⟨i - r1.length, e, f, by omega, hr, hp⟩, by omega⟩

theorem Lists.single {e f : Nat} {p : Nat → Nat → Prop} (h : p e f) : Lists 0 [(e, f)] p [0] := by
  refine ⟨List.pairwise_singleton _ _, fun v => ?_⟩
  rw [List.mem_singleton]
  constructor
  · rintro rfl; exact ⟨0, e, f, rfl, rfl, h⟩
  · rintro ⟨i, e', f', rfl, hr, _⟩
    have := (List.getElem?_eq_some_iff.1 hr).1
    simp at this; omega

theorem Lists.not_single {e f : Nat} {p : Nat → Nat → Prop} (h : ¬ p e f) : Lists 0 [(e, f)] p [] := by
  refine ⟨List.Pairwise.nil, fun v => ?_⟩
  simp only [List.not_mem_nil, false_iff]
  rintro ⟨i, e', f', rfl, hr, hp⟩
  have := (List.getElem?_eq_some_iff.1 hr).1
  simp only [List.length_singleton] at this
  obtain rfl : i = 0 := by omega
  simp only [List.getElem?_cons_zero, Option.some.injEq, Prod.mk.injEq] at hr
  exact h (hr.1 ▸ hr.2 ▸ hp)

theorem Lists.snoc {base : Nat} {reg : List (Nat × Nat)} {p : Nat → Nat → Prop} {l l' : List Nat} {e f : Nat} (h : Lists base reg p l)
    (h1 : p e f → l' = l ++ [base + reg.length]) (h2 : ¬ p e f → l' = l) : Lists base (reg ++ [(e, f)]) p l' := by
  by_cases hp : p e f
  · rw [h1 hp]; exact h.append (Lists.single hp)
  · rw [h2 hp]; simpa using h.append (Lists.not_single hp)

theorem push_same {κ : Type} [DecidableEq κ] (m : κ → List Nat) (k : κ) (v : Nat) : push m k v k = m k ++ [v] := by simp [push]
theorem push_other {κ : Type} [DecidableEq κ] (m : κ → List Nat) {k k' : κ} (v : Nat) (h : k' ≠ k) : push m k v k' = m k' := by simp [push, h]

/-- Appending to two different entries. -/
theorem push_two {κ : Type} [DecidableEq κ] (m : κ → List Nat) (k : κ) (o : Option κ) (v : Nat) (h : o ≠ some k) (k' : κ) :
    pushIf (push m k v) o v k' = if k' = k ∨ o = some k' then m k' ++ [v] else m k' := by
  cases o with
  | none => by_cases hk : k' = k <;> simp [pushIf, push, hk]
  | some j =>
    have hjk : j ≠ k := fun hh => h (by rw [hh])
    by_cases hk : k' = k
    · subst hk; simp [pushIf, push, hjk.symm]
    · by_cases hj : j = k'
      · subst hj; simp [pushIf, push, hk]
      · have : k' ≠ j := fun hh => hj hh.symm
        simp [pushIf, push, hk, hj, this]

theorem push_three {κ : Type} [DecidableEq κ] (m : κ → List Nat) (k : κ) (o o' : Option κ) (v : Nat) (h : o ≠ some k) (h' : o' ≠ some k)
    (h'' : ∀ j, ¬ (o = some j ∧ o' = some j)) (k' : κ) :
    pushIf (pushIf (push m k v) o v) o' v k' = if k' = k ∨ o = some k' ∨ o' = some k' then m k' ++ [v] else m k' := by
  cases o' with
  | none =>
    have e : pushIf (pushIf (push m k v) o v) none v = pushIf (push m k v) o v := rfl
    rw [e, push_two m k o v h]; simp
  | some j =>
    have hjk : j ≠ k := fun hh => h' (by rw [hh])
    have e : pushIf (pushIf (push m k v) o v) (some j) v = push (pushIf (push m k v) o v) j v := rfl
    rw [e]
    by_cases hj : k' = j
    · subst hj
      rw [push_same, push_two m k o v h]
      have ho : o ≠ some k' := fun hh => h'' k' ⟨hh, rfl⟩
      simp [hjk, ho]
    · rw [push_other _ _ hj, push_two m k o v h]
      have : j ≠ k' := fun hh => hj hh.symm
      simp [this]

/-- The two faces of an edge as computed by the code. -/
theorem edge_faces {ps : Mesh P} {e : Nat} (h : ∃ g, OnEdge ps e g) (h2 : ∀ g, ¬ (ps.face (halfedgeOf e 0) = some g ∧ ps.face (halfedgeOf e 1) = some g)) :
    ∃ g, edgeFace ps e = some g ∧ OnEdge ps e g ∧ otherFace ps e ≠ some g ∧ ∀ g', OnEdge ps e g' ↔ g' = g ∨ otherFace ps e = some g' := by
  unfold otherFace edgeFace OnEdge at *
  cases h0 : ps.face (halfedgeOf e 0) with
  | none =>
    cases h1 : ps.face (halfedgeOf e 1) with
    | none => rw [h0, h1] at h; simp at h
    | some g1 =>
      refine ⟨g1, by simp, by simp, by simp, fun g' => ?_⟩
      simp only [reduceCtorEq, false_or, Option.some.injEq, if_false, or_false]
      exact eq_comm
  | some g0 =>
    refine ⟨g0, by simp, by simp, ?_, fun g' => ?_⟩
    · simp only [if_true]; intro hh; exact h2 g0 ⟨h0, hh⟩
    · simp only [Option.some.injEq, if_true]
      constructor
      · rintro (h | h)
        · exact .inl h.symm
        · exact .inr h
      · rintro (h | h)
        · exact .inl h.symm
        · exact .inr h

/-- Recording one point keeps the tables right. -/
theorem record_spec {ps : Mesh P} {smV smF base : Nat} {R : List (Nat × Nat × P)} {t : Tables P} (h : Recorded ps smF base R t) {e f : Nat}
    (S : Sided ps smV smF e f) (p : P) :
    Recorded ps smF base (R ++ [(e, f, p)]) (record ps smV smF t (base + t.pts.length) e f p) := by
  have hlen : t.pts.length = t.reg.length := by rw [h.pts, h.reg]; simp
  obtain ⟨g, hg, hon, hother, hall⟩ := edge_faces S.used S.two
  have hcm : isCutFace smF (edgeFace ps e) = true ↔ CutEdge ps smF e := by
    rw [hg]; simp only [isCutFace, decide_eq_true_eq]; exact S.one g hon
  have hb : ps.isBorder e = true ↔ BorderEdge ps e := by
    unfold Mesh.isBorder BorderEdge; simp
  have hmap : ∀ (k : Nat → Nat × Nat) (s c : Nat), (otherFace ps e).map k = some (s, c) ↔ ∃ g', otherFace ps e = some g' ∧ k g' = (s, c) := by
    intro k s c; cases otherFace ps e <;> simp
  rw [hlen]
  refine ⟨?_, ?_, ?_, fun e0 => ?_, fun s c => ?_, fun g0 => ?_, ?_⟩
  · simp [record, h.pts]
  · simp [record, h.reg]
  · have : (record ps smV smF t (base + t.reg.length) e f p).reg = t.reg ++ [(e, f)] := rfl
    rw [this]
    refine h.border.snoc (fun hp => ?_) (fun hp => ?_)
    · simp only [record]; rw [if_pos]; simp only [Bool.and_eq_true]; exact ⟨hcm.2 hp.1, hb.2 hp.2⟩
    · simp only [record]; rw [if_neg]; simp only [Bool.and_eq_true]; exact fun hh => hp ⟨hcm.1 hh.1, hb.1 hh.2⟩
  · have : (record ps smV smF t (base + t.reg.length) e f p).reg = t.reg ++ [(e, f)] := rfl
    rw [this]
    refine (h.edges e0).snoc (fun hp => ?_) (fun hp => ?_)
    · subst hp; simp [record, push]
    · simp only [record]; exact push_other _ _ (fun hh => hp hh.symm)
  · have : (record ps smV smF t (base + t.reg.length) e f p).reg = t.reg ++ [(e, f)] := rfl
    rw [this]
    have hcut : (record ps smV smF t (base + t.reg.length) e f p).cut (s, c) =
        open Classical in if s < smF ∧ smF ≤ c ∧ ((OnEdge ps e s ∧ f = c) ∨ (OnEdge ps e c ∧ f = s)) then t.cut (s, c) ++ [base + t.reg.length] else t.cut (s, c) := by
      simp only [record, hg, Option.getD_some]
      by_cases hc : CutEdge ps smF e
      · have hc' := hcm.2 hc
        rw [hg] at hc'
        rw [if_pos hc', push_two _ _ _ _ (by rw [ne_eq, hmap]; rintro ⟨g', h1, h2⟩; simp only [Prod.mk.injEq, true_and] at h2; exact hother (h2 ▸ h1))]
        congr 1
        rw [hmap]
        simp only [Prod.mk.injEq, eq_iff_iff]
        have hf : f < smF := by have := S.face; by_contra hh; exact (this.1 (by omega)) hc
        constructor
        · rintro (⟨h1, h2⟩ | ⟨g', h1, h2, h3⟩)
          · subst h1 h2; exact ⟨hf, (S.one c hon).2 hc, .inr ⟨hon, rfl⟩⟩
          · subst h2 h3; exact ⟨hf, (S.one g' ((hall g').2 (.inr h1))).2 hc, .inr ⟨(hall g').2 (.inr h1), rfl⟩⟩
        · rintro ⟨h1, h2, ⟨h3, h4⟩ | ⟨h3, h4⟩⟩
          · have := (S.one s h3).2 hc; omega
          · rcases (hall c).1 h3 with rfl | h5
            · exact .inl ⟨h4.symm, rfl⟩
            · exact .inr ⟨c, h5, h4, rfl⟩
      · have hc' : ¬ isCutFace smF (some g) = true := by rw [← hg]; exact fun hh => hc (hcm.1 hh)
        rw [if_neg hc', push_two _ _ _ _ (by rw [ne_eq, hmap]; rintro ⟨g', h1, h2⟩; simp only [Prod.mk.injEq, and_true] at h2; exact hother (h2 ▸ h1))]
        congr 1
        rw [hmap]
        simp only [Prod.mk.injEq, eq_iff_iff]
        have hf : smF ≤ f := S.face.2 hc
        have hlt : ∀ g', OnEdge ps e g' → g' < smF := fun g' hh => by by_contra hn; exact hc ((S.one g' hh).1 (by omega))
        constructor
        · rintro (⟨h1, h2⟩ | ⟨g', h1, h2, h3⟩)
          · subst h1 h2; exact ⟨hlt s hon, hf, .inl ⟨hon, rfl⟩⟩
          · subst h2 h3; exact ⟨hlt g' ((hall g').2 (.inr h1)), hf, .inl ⟨(hall g').2 (.inr h1), rfl⟩⟩
        · rintro ⟨h1, h2, ⟨h3, h4⟩ | ⟨h3, h4⟩⟩
          · rcases (hall s).1 h3 with rfl | h5
            · exact .inl ⟨rfl, h4.symm⟩
            · exact .inr ⟨s, h5, rfl, h4⟩
          · have := hlt c h3; omega
    refine (h.cut s c).snoc (fun hp => ?_) (fun hp => ?_)
    · rw [hcut, if_pos hp]
    · rw [hcut, if_neg hp]
  · have : (record ps smV smF t (base + t.reg.length) e f p).reg = t.reg ++ [(e, f)] := rfl
    rw [this]
    have hno : ¬ OnEdge ps e f := by
      intro hh
      have h1 := S.one f hh; have h2 := S.face
      by_cases hc : CutEdge ps smF e
      · exact h2.1 (h1.2 hc) hc
      · exact hc (h1.1 (h2.2 hc))
    have hfc : (record ps smV smF t (base + t.reg.length) e f p).faces g0 =
        open Classical in if f = g0 ∨ OnEdge ps e g0 then t.faces g0 ++ [base + t.reg.length] else t.faces g0 := by
      simp only [record]
      rw [push_three _ _ _ _ _ (fun hh => hno (.inl hh)) (fun hh => hno (.inr hh)) (fun j hh => S.two j hh)]
      congr 1
      unfold OnEdge
      rw [eq_comm (a := f)]
    refine (h.faces g0).snoc (fun hp => ?_) (fun hp => ?_)
    · rw [hfc, if_pos hp]
    · rw [hfc, if_neg hp]
  · have : (record ps smV smF t (base + t.reg.length) e f p).reg = t.reg ++ [(e, f)] := rfl
    rw [this]
    have hp := h.partialCut
    simp only [record, List.mem_append, List.mem_singleton, or_and_right, exists_or, exists_eq_left]
    rw [← hp]
    by_cases ht : t.partialCut = true
    · simp [ht]
    · rw [if_neg ht]
      have hb' : ((ps.face (halfedgeOf e 0)).isNone || (ps.face (halfedgeOf e 1)).isNone) = true ↔ BorderEdge ps e := by unfold BorderEdge; simp
      simp only [Bool.and_eq_true, decide_eq_true_eq, S.vertex, hb', ht, Bool.false_eq_true, false_or]

theorem recorded_empty (ps : Mesh P) (smF base : Nat) : Recorded ps smF base [] (Tables.empty : Tables P) :=
  ⟨rfl, rfl, Lists.nil _ _, fun _ => Lists.nil _ _, fun _ _ => Lists.nil _ _, fun _ => Lists.nil _ _, by simp [Tables.empty]⟩

theorem testFaces_spec {ps : Mesh P} {smV smF base : Nat} {test : Nat → Nat → Outcome P} {e : Nat} : ∀ (fs : List Nat) (R : List (Nat × Nat × P)) (t : Tables P),
    (∀ f ∈ fs, Sided ps smV smF e f) → Recorded ps smF base R t →
    (testFaces ps smV smF base test e fs t = none ↔ ∃ f ∈ fs, test e f = .violation) ∧
    ∀ t', testFaces ps smV smF base test e fs t = some t' → Recorded ps smF base (R ++ hits test [(e, fs)]) t'
  | [], R, t, _, h => ⟨by simp [testFaces], fun t' ht => by
      simp only [testFaces, Option.some.injEq] at ht; subst ht; simpa [hits] using h⟩
  | f :: fs, R, t, hs, h => by
    have hs' := fun f' hf' => hs f' (List.mem_cons_of_mem _ hf')
    unfold testFaces
    cases hte : test e f with
    | miss =>
      obtain ⟨h1, h2⟩ := testFaces_spec fs R t hs' h
      simp only
      refine ⟨by rw [h1]; simp [hte], fun t' ht => ?_⟩
      have := h2 t' ht
      simpa [hits, hte] using this
    | violation => exact ⟨by simp [hte], fun t' ht => by simp at ht⟩
    | point p =>
      obtain ⟨h1, h2⟩ := testFaces_spec fs _ _ hs' (record_spec h (hs f (by simp)) p)
      simp only
      refine ⟨by rw [h1]; simp [hte], fun t' ht => ?_⟩
      have := h2 t' ht
      simpa [hits, hte] using this

theorem testEdges_spec {ps : Mesh P} {smV smF base : Nat} {test : Nat → Nat → Outcome P} : ∀ (cand : List (Nat × List Nat)) (R : List (Nat × Nat × P)) (t : Tables P),
    (∀ x ∈ cand, ∀ f ∈ x.2, Sided ps smV smF x.1 f) → Recorded ps smF base R t →
    (testEdges ps smV smF base test cand t = none ↔ Violated test cand) ∧
    ∀ t', testEdges ps smV smF base test cand t = some t' → Recorded ps smF base (R ++ hits test cand) t'
  | [], R, t, _, h => ⟨by simp [testEdges, Violated], fun t' ht => by
      simp only [testEdges, Option.some.injEq] at ht; subst ht; simpa [hits] using h⟩
  | x :: xs, R, t, hs, h => by
    obtain ⟨h1, h2⟩ := testFaces_spec (test := test) x.2 R t (hs x (by simp)) h
    have hs' := fun y hy => hs y (List.mem_cons_of_mem _ hy)
    have hv : Violated test (x :: xs) ↔ (∃ f ∈ x.2, test x.1 f = .violation) ∨ Violated test xs := by simp [Violated]
    unfold testEdges
    cases hc : testFaces ps smV smF base test x.1 x.2 t with
    | none => exact ⟨by rw [hv]; simp [h1.1 hc], fun t' ht => by simp at ht⟩
    | some t1 =>
      obtain ⟨h3, h4⟩ := testEdges_spec xs _ t1 hs' (h2 t1 hc)
      simp only [Option.bind_some]
      refine ⟨?_, fun t' ht => ?_⟩
      · rw [h3, hv]
        have : ¬ ∃ f ∈ x.2, test x.1 f = .violation := fun hh => by rw [h1.2 hh] at hc; cases hc
        simp [this]
      · have := h4 t' ht
        have e1 : hits test [(x.1, x.2)] ++ hits test xs = hits test (x :: xs) := by simp [hits]
        rw [List.append_assoc, e1] at this
        exact this

theorem shift_spec {ps : Mesh P} {smF psV : Nat} {R : List (Nat × Nat × P)} {t : Tables P} (h : Recorded ps smF 0 R t) :
    Recorded ps smF psV R (shift psV t) :=
  ⟨h.pts, h.reg, h.border.shift, fun e => (h.edges e).shift, fun s c => (h.cut s c).shift, fun g => (h.faces g).shift, h.partialCut⟩

theorem appendNew_spec {seek : Nat → Nat} {base : Nat} : ∀ (new old : List Nat), (∀ j ∈ new, seek j ∉ old) → (∀ j ∈ new, ∀ k ∈ new, j ≠ k → seek j ≠ base + k) →
    new.Nodup → appendNew seek base old new = old ++ new.map (base + ·)
  | [], old, _, _, _ => by simp [appendNew]
  | j :: js, old, h1, h2, h3 => by
    have hj : old.contains (seek j) = false := by simpa using h1 j (by simp)
    rw [List.nodup_cons] at h3
    have := appendNew_spec (seek := seek) (base := base) js (old ++ [base + j]) (by
      intro k hk
      rw [List.mem_append, List.mem_singleton, not_or]
      refine ⟨h1 k (by simp [hk]), h2 k (by simp [hk]) j (by simp) ?_⟩
      rintro rfl; exact h3.1 hk) (fun a ha b hb => h2 a (by simp [ha]) b (by simp [hb])) h3.2
    unfold appendNew at this ⊢
    rw [List.foldl_cons, hj]
    simpa using this

theorem mergeMap_spec {κ : Type} {seek : Nat → Nat} {base : Nat} {m n : κ → List Nat} {k : κ} (h : (m k = [] ∨ n k = []) ∨
    (seek = (base + ·) ∧ (∀ v ∈ m k, v < base) ∧ (n k).Nodup)) : mergeMap seek base m n k = m k ++ (n k).map (base + ·) := by
  unfold mergeMap
  by_cases hn : n k = []
  · simp [hn]
  · rw [if_neg (by simpa using hn)]
    by_cases hm : m k = []
    · simp [hm]
    · rw [if_pos (by simpa using hm)]
      rcases h with (h | h) | ⟨rfl, h1, h2⟩
      · exact absurd h hm
      · exact absurd h hn
      · refine appendNew_spec _ _ (fun j _ hh => ?_) (fun j _ k _ hjk => by omega) h2
        have := h1 _ hh
        omega

/-- Merging a future keeps the tables right, if the edges of the future are new. -/
theorem merge_spec {ps : Mesh P} {smF psV : Nat} {R1 R2 : List (Nat × Nat × P)} {a t : Tables P} (h1 : Recorded ps smF psV R1 a) (h2 : Recorded ps smF 0 R2 t)
    (hd : ∀ x ∈ R1, ∀ y ∈ R2, x.1 ≠ y.1) : Recorded ps smF psV (R1 ++ R2) (mergeFuture (psV + a.pts.length) a t) := by
  have hlen : a.pts.length = a.reg.length := by rw [h1.pts, h1.reg]; simp
  rw [hlen]
  have hr : (mergeFuture (psV + a.reg.length) a t).reg = a.reg ++ t.reg := rfl
  refine ⟨by simp [mergeFuture, h1.pts, h2.pts], by simp [mergeFuture, h1.reg, h2.reg], ?_, fun e => ?_, fun s c => ?_, fun g => ?_, ?_⟩
  · rw [hr]; exact h1.border.append h2.border
  · rw [hr]
    have : (mergeFuture (psV + a.reg.length) a t).edges e = a.edges e ++ (t.edges e).map (psV + a.reg.length + ·) := by
      refine mergeMap_spec (.inl ?_)
      by_contra hc
      rw [not_or] at hc
      obtain ⟨v, hv⟩ := List.exists_mem_of_ne_nil _ hc.1
      obtain ⟨w, hw⟩ := List.exists_mem_of_ne_nil _ hc.2
      obtain ⟨i, e1, f1, _, hi, rfl⟩ := ((h1.edges e).2 v).1 hv
      obtain ⟨j, e2, f2, _, hj, he2⟩ := ((h2.edges e1).2 w).1 hw
      subst he2
      have m1 := List.mem_of_getElem? hi
      have m2 := List.mem_of_getElem? hj
      rw [h1.reg] at m1
      rw [h2.reg] at m2
      obtain ⟨x, hx, hxe⟩ := List.mem_map.1 m1
      obtain ⟨y, hy, hye⟩ := List.mem_map.1 m2
      simp only [Prod.mk.injEq] at hxe hye
      exact hd x hx y hy (hxe.1.trans hye.1.symm)
    rw [this]
    exact (h1.edges e).append (h2.edges e)
  · rw [hr]
    have : (mergeFuture (psV + a.reg.length) a t).cut (s, c) = a.cut (s, c) ++ (t.cut (s, c)).map (psV + a.reg.length + ·) :=
      mergeMap_spec (.inr ⟨rfl, fun v hv => ((h1.cut s c).range hv).2, (h2.cut s c).1.imp (fun h => by omega)⟩)
    rw [this]
    exact (h1.cut s c).append (h2.cut s c)
  · rw [hr]
    have : (mergeFuture (psV + a.reg.length) a t).faces g = a.faces g ++ (t.faces g).map (psV + a.reg.length + ·) :=
      mergeMap_spec (.inr ⟨rfl, fun v hv => ((h1.faces g).range hv).2, (h2.faces g).1.imp (fun h => by omega)⟩)
    rw [this]
    exact (h1.faces g).append (h2.faces g)
  · rw [hr]
    simp only [mergeFuture, Bool.or_eq_true, h1.partialCut, h2.partialCut, List.mem_append, or_and_right, exists_or]

end Mcut.Registry
